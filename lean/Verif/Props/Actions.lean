import Verif.Lemmas.Actions4
import Verif.Props.Vhost

/-!
# C69-C76: what a configuration file means
-/

set_option autoImplicit false

namespace Gmid.Props

open Spec

theorem initMime_wf : MimeWf initMime := ⟨by simp [initMime], by simp [initMime], by simp [initMime]⟩

theorem fresh_tracks {c0 : CConf} (hf : Fresh c0) : Tracks [] { c0 with defaultHost := none, defaultPort := 1965, errors := 0 } :=
  ⟨by rw [hf.fcgi]; simp [EpsOk], rfl, rfl⟩

theorem fresh_inv (env : PEnv) {c0 : CConf} (hf : Fresh c0) : FileInv env c0 [] { c0 with defaultHost := none, defaultPort := 1965, errors := 0 } := by
  refine ⟨by simp [hf.fcgi], by simp, by simp [hf.hosts], by simp [hf.hosts, serversWithPrefix], ?_, by simp only [hf.mime]; exact initMime_wf⟩
  constructor <;> simp [lastOf]

theorem parse_inv {env : PEnv} (hr : Resolves env) {c0 c : CConf} (hf : Fresh c0) {ds : List Directive} (h : parseConf env c0 ds = .ok (c, true)) :
    FileInv env c0 ds c := by
  unfold parseConf at h
  cases h1 : confActions env { c0 with defaultHost := none, defaultPort := 1965, errors := 0 } ds with
  | ub => rw [h1] at h; cases h
  | err => rw [h1] at h; cases h
  | ok c1 =>
    rw [h1] at h
    simp only [Res.ok.injEq, Prod.mk.injEq, decide_eq_true_eq] at h
    obtain ⟨rfl, h2⟩ := h
    simpa using confActions_val hr ds (fresh_tracks hf) (fresh_inv env hf) h1 h2

theorem prefResolve_iff (env : PEnv) (ds : List Directive) :
    PrefResolve env (serversWithPrefix [] ds) ↔ ∀ l ∈ (fileListens ds).flatten, env.resolve l.1 l.2.1 ≠ none := by
  unfold PrefResolve fileListens
  constructor
  · intro h l hl
    obtain ⟨x, hx, hl⟩ := List.mem_flatten.mp hl
    obtain ⟨y, hy, rfl⟩ := List.mem_map.mp hx
    exact h y hy l hl
  · intro h y hy l hl
    exact h l (List.mem_flatten.mpr ⟨_, List.mem_map.mpr ⟨y, hy, rfl⟩, hl⟩)

theorem consistent_iff (env : PEnv) (ds : List Directive) :
    Consistent (prefPairs env (serversWithPrefix [] ds)) ↔
      ∀ l ∈ (fileListens ds).flatten, ∀ l' ∈ (fileListens ds).flatten, ∀ x ∈ resolved env l, ∀ y ∈ resolved env l', x.1 = y.1 → x.2 = y.2 := by
  have hm : ∀ x, x ∈ prefPairs env (serversWithPrefix [] ds) ↔ ∃ l ∈ (fileListens ds).flatten, x ∈ resolved env l := by
    intro x
    unfold prefPairs fileListens
    simp only [List.mem_flatMap, List.mem_flatten, List.mem_map]
    constructor
    · rintro ⟨y, hy, l, hl, hx⟩; exact ⟨l, ⟨_, ⟨y, hy, rfl⟩, hl⟩, hx⟩
    · rintro ⟨l, ⟨_, ⟨y, hy, rfl⟩, hl⟩, hx⟩; exact ⟨y, hy, l, hl, hx⟩
  unfold Consistent
  constructor
  · intro h l hl l' hl' x hx y hy
    exact h x ((hm x).mpr ⟨l, hl, hx⟩) y ((hm y).mpr ⟨l', hl', hy⟩)
  · intro h x hx y hy
    obtain ⟨l, hl, hx⟩ := (hm x).mp hx
    obtain ⟨l', hl', hy⟩ := (hm y).mp hy
    exact h l hl l' hl' x hx y hy

/-! ## C69 -/

/-- **C69, in part.** Whenever the parser comes to an end, the file is accepted exactly when it is valid. -/
theorem C69_accepted_partial (env : PEnv) (hr : Resolves env) (c0 : CConf) (hf : Fresh c0) (ds : List Directive) (c : CConf) (b : Bool)
    (h : parseConf env c0 ds = .ok (c, b)) : b = true ↔ FileOk env ds := by
  unfold parseConf at h
  cases h1 : confActions env { c0 with defaultHost := none, defaultPort := 1965, errors := 0 } ds with
  | ub => rw [h1] at h; cases h
  | err => rw [h1] at h; cases h
  | ok c1 =>
    rw [h1] at h
    simp only [Res.ok.injEq, Prod.mk.injEq] at h
    obtain ⟨rfl, rfl⟩ := h
    obtain ⟨_, b2, b3⟩ := confActions_err hr ds (fresh_tracks hf) h1
    rw [decide_eq_true_eq]
    constructor
    · intro h0
      obtain ⟨_, x2, x3, x4⟩ := b2 h0
      simp only [hf.addrs] at x4
      exact ⟨x2, (prefResolve_iff env ds).mp x3, (consistent_iff env ds).mp (addAll_consistent x4)⟩
    · rintro ⟨y1, y2, y3⟩
      have hc := (consistent_iff env ds).mpr y3
      obtain ⟨ec, z1, z2⟩ := b3 y1 ((prefResolve_iff env ds).mpr y2) hc
      simp only [hf.addrs] at z1
      have : ec = 0 := (addAll_spec _ _ _ _ (by simp [DistinctAddrs]) z1).2.2.2.2.2 (by simpa using hc)
      simp only at z2
      omega

/-- **C69, in part.** The parser comes to an end if no path is used for FastCGI both with a port and without, no `block return` text ends
in a single percent sign, media types and extensions are short, and addresses are IPv4 or IPv6. -/
theorem C69_defined_partial (env : PEnv) (hu : Usable env) (c0 : CConf) (hf : Fresh c0) (ds : List Directive) (hm : NoMix (fileSockets ds))
    (hp : ∀ o ∈ ds.flatMap dirLocOpts, NoTrailingPercent o) (ht : ∀ d ∈ ds, TypesFit d) : ∃ c b, parseConf env c0 ds = .ok (c, b) := by
  obtain ⟨c', h⟩ := confActions_defined hu hm ds (c := { c0 with defaultHost := none, defaultPort := 1965, errors := 0 }) hp (fun _ h => h) ht
    (by simp only [hf.fcgi]; simp [FsFrom]) (by simp only [hf.mime]; exact initMime_wf)
  exact ⟨c', _, by unfold parseConf; rw [h]⟩

/-- an environment in which everything resolves to one address -/
def cfEnv : PEnv where
  resolve := fun h _ => if h = some b%"nowhere" then none else some [if h = some b%"::" then exAi6 else exAi]
  serv := fun s => if s = b%"gemini" then some 1965 else none
  protos := fun s => if s = b%"tlsv1.3" then some 16 else if s = b%"tlsv1.2,tlsv1.3" then some 24 else none

theorem cfEnv_ok : Resolves cfEnv ∧ Usable cfEnv := by
  constructor
  · intro h p
    simp only [cfEnv]
    by_cases h1 : h = some b%"nowhere" <;> simp [h1]
  · intro h p ais he a ha
    simp only [cfEnv] at he
    by_cases h1 : h = some b%"nowhere"
    · simp [h1] at he
    · rw [if_neg h1] at he
      simp only [Option.some.injEq] at he
      subst he
      simp only [List.mem_singleton] at ha
      subst ha
      by_cases h2 : h = some b%"::"
      · simp [h2, UsableAddr, exAi6]
      · simp [h2, UsableAddr, exAi]

/-- a file -/
def cfFile : List Directive :=
  [.user b%"_gmid", .prefork 2, .types [(b%"text/x-foo", [b%"foo", b%"bar"])], .logStyle b%"common", .syslogFacility b%"LOG_User",
   .server b%"example.com" [.cert b%"/etc/c.pem", .key b%"/etc/k.pem", .opt (.root b%"/var/gemini"), .opt (.lang b%"it"), .alias b%"www.example.com",
     .listen (some b%"::") b%"1965" false,
     .location b%"/app/*" [.fcgiSocket b%"/run/a.sock" none, .lang b%"en"],
     .proxy [.forHost b%"x.org" .none] [.relayTo b%"10.0.0.1" (.name b%"gemini"), .useTls false]],
   .server b%"*" [.cert b%"/etc/c.pem", .key b%"/etc/k.pem", .opt .block]]

example : (parseConf cfEnv confNew cfFile).val?.map (·.2) = some true := by decide +kernel

theorem fresh_new : Fresh confNew := ⟨rfl, rfl, rfl, rfl⟩
theorem fresh_purge (c : CConf) : Fresh (confPurge c) := ⟨rfl, rfl, rfl, rfl⟩

/-- the file is valid -/
theorem cfFile_ok : FileOk cfEnv cfFile := by
  cases h : parseConf cfEnv confNew cfFile with
  | ok x =>
    obtain ⟨c, b⟩ := x
    have : (parseConf cfEnv confNew cfFile).val?.map (·.2) = some true := by decide +kernel
    rw [h] at this
    simp only [Res.val?, Option.map_some, Option.some.injEq] at this
    exact (C69_accepted_partial cfEnv cfEnv_ok.1 confNew fresh_new cfFile c b h).mp this
  | err => have : (parseConf cfEnv confNew cfFile).val?.map (·.2) = some true := by decide +kernel
           rw [h] at this; cases this
  | ub => have : (parseConf cfEnv confNew cfFile).val?.map (·.2) = some true := by decide +kernel
          rw [h] at this; cases this

-- files that are refused
example : (parseConf cfEnv confNew [.server b%"a" [.cert b%"/c"]]).val?.map (·.2) = some false := by decide +kernel
example : (parseConf cfEnv confNew [.server b%"a" [.cert b%"c", .key b%"/k"]]).val?.map (·.2) = some false := by decide +kernel
example : (parseConf cfEnv confNew [.server b%"a" [.cert b%"/c", .key b%"/k", .listen none b%"1" true], .server b%"b" [.cert b%"/c", .key b%"/k"]]).val?.map (·.2)
    = some false := by decide +kernel
example : (parseConf cfEnv confNew [.prefork 16]).val?.map (·.2) = some false := by decide +kernel

/-! ## C70 -/

/-- **C70, in part.** In an accepted file in which no server has options after its locations, every server has exactly the options written in
it, and every location and proxy block exactly its own, untruncated, the last one counting when there are more; servers are in the reverse of their order.
The FastCGI endpoints are distinct, and all those of the file. -/
theorem C70_options_partial (env : PEnv) (hr : Resolves env) (c0 c : CConf) (hf : Fresh c0) (ds : List Directive)
    (h : parseConf env c0 ds = .ok (c, true)) (ho : ∀ x ∈ ds.filterMap serverOf, OptsFirst x.2) :
    c.hosts.map noAddrs = ((ds.filterMap serverOf).map fun x => hostValue env c.fcgi x.1 x.2).reverse ∧ c.fcgi.Nodup := by
  have hi := parse_inv hr hf h
  refine ⟨?_, hi.nodup⟩
  rw [hi.hosts, ← List.map_reverse]
  exact List.map_congr_left fun x hx => genHost_first (ho x (List.mem_reverse.mp hx))

/-- **C70, in part.** Every FastCGI endpoint a location of an accepted file uses is in the table, so its index denotes it. -/
theorem C70_endpoints_partial (env : PEnv) (hr : Resolves env) (c0 c : CConf) (hf : Fresh c0) (ds : List Directive)
    (h : parseConf env c0 ds = .ok (c, true)) (n : Bytes) (body : List SrvOpt) (hn : (n, body) ∈ ds.filterMap serverOf) (ho : OptsFirst body)
    (os : List LocOpt) (hos : os = body.filterMap optOf ∨ ∃ p, (p, os) ∈ body.filterMap locationOf) (d : Bytes × Option Bytes)
    (hd : lastOf fcgiOf os = some (some d)) : ∃ i : Nat, fcgiIndex c.fcgi (lastOf fcgiOf os) = i ∧ c.fcgi[i]? = some (endpoint d) := by
  have hi := parse_inv hr hf h
  have hdec : Declared c.fcgi os := by
    have hb : ∃ p, (p, os) ∈ blocks body := by
      rw [blocks_first ho]
      rcases hos with rfl | ⟨p, hp⟩
      · exact ⟨_, List.mem_cons_self ..⟩
      · exact ⟨_, List.mem_cons_of_mem _ (List.mem_map.mpr ⟨_, hp, rfl⟩)⟩
    obtain ⟨p, hp⟩ := hb
    exact hi.decl _ hn _ hp
  have hmem : endpoint d ∈ c.fcgi := by
    obtain ⟨o, ho1, ho2⟩ := List.mem_filterMap.mp (List.mem_of_getLast? hd)
    exact hdec o ho1 d (by cases o <;> simp_all [fcgiOf, socketOf])
  refine ⟨c.fcgi.idxOf (endpoint d), by rw [hd]; rfl, ?_⟩
  have hlt := List.idxOf_lt_length_of_mem hmem
  rw [List.getElem?_eq_getElem hlt, List.getElem_idxOf hlt]

/-- **C70, the rest is false.** An option of the server written after a location becomes an option of that location: here
the whole server is meant to require a client certificate, but only one directory of it does. -/
theorem C70_option_misplaced (fnm : Bytes → Bytes → Bool) (hfn : fnm b%"pub/*" b%"private/x" = false) :
    ∃ c, parseConf cfEnv confNew [.server b%"h" [.cert b%"/c", .key b%"/k", .opt (.root b%"/var"), .location b%"/pub/*" [.lang b%"it"], .opt (.requireCa b%"/ca.pem")]]
        = .ok (c, true) ∧
      ∃ h, c.hosts = [h] ∧ vhostRequireCa fnm (some (h.toVhost (fun _ => 1) (fun _ => 3))) (some b%"private/x") = none := by
  refine ⟨_, rfl, _, rfl, ?_⟩
  simp [vhostRequireCa, CHost.toVhost, CLoc.toLocation, caLoop, pmatch, dropSlash, fld, hfn, setLast, newHost]

example : OptsFirst [.cert b%"/c", .opt (.lang b%"it"), .location b%"a" [], .key b%"/k"] :=
  ⟨[.cert b%"/c", .opt (.lang b%"it")], [.location b%"a" [], .key b%"/k"], rfl, rfl, rfl⟩

/-! ## C71 -/

/-- the server matches the name -/
def serverNamed (fnm : Bytes → Bytes → Bool) (x : Bytes × List SrvOpt) (name : Bytes) : Prop :=
  ∃ p, (p = x.1 ∨ p ∈ x.2.filterMap aliasOf) ∧ fnm p (if name.head? = some c%'/' then name.tail else name) = true

/-- **C71.** A name is served by the last server of the file whose name or alias matches it, by none when there is none. -/
theorem C71_last_server (env : PEnv) (hr : Resolves env) (c0 c : CConf) (hf : Fresh c0) (ds : List Directive) (fnm : Bytes → Bytes → Bool)
    (ca : Bytes → Nat) (fd : Bytes → Int) (name : Bytes) (h : parseConf env c0 ds = .ok (c, true)) :
    (∀ before x after, ds.filterMap serverOf = before ++ x :: after → serverNamed fnm x name → (∀ y ∈ after, ¬ serverNamed fnm y name) →
      ∃ v, findHost fnm name (c.hosts.map (CHost.toVhost ca fd)) = some (v.toVhost ca fd) ∧ c.hosts[after.length]? = some v ∧ v.domain = x.1 ∧
        (OptsFirst x.2 → noAddrs v = hostValue env c.fcgi x.1 x.2)) ∧
    ((∀ x ∈ ds.filterMap serverOf, ¬ serverNamed fnm x name) → findHost fnm name (c.hosts.map (CHost.toVhost ca fd)) = none) := by
  have hi := parse_inv hr hf h
  have hmatch : ∀ (v : CHost) (x : Bytes × List SrvOpt), noAddrs v = genHost env c.fcgi x → (HostMatches fnm (v.toVhost ca fd) name ↔ serverNamed fnm x name) := by
    intro v x he
    have h1 : v.domain = x.1 := congrArg CHost.domain he
    have h2 : v.aliases = x.2.filterMap aliasOf := congrArg CHost.aliases he
    unfold HostMatches serverNamed
    simp only [CHost.toVhost, h1, h2]
  have hget : ∀ i : Nat, (c.hosts[i]?).map noAddrs = ((ds.filterMap serverOf).reverse[i]?).map (genHost env c.fcgi) := by
    intro i
    rw [← List.getElem?_map, hi.hosts, List.getElem?_map]
  constructor
  · intro before x after he hx ha
    have hrev : (ds.filterMap serverOf).reverse = after.reverse ++ x :: before.reverse := by rw [he]; simp
    have hx' := hget after.length
    rw [hrev, List.getElem?_append_right (by simp), List.length_reverse, Nat.sub_self, List.getElem?_cons_zero, Option.map_some] at hx'
    obtain ⟨v, hv, hvx⟩ := Option.map_eq_some_iff.mp hx'
    refine ⟨v, ?_, hv, congrArg CHost.domain hvx, fun ho => by rw [hvx, genHost_first ho]⟩
    refine ((C16_first_matching_host fnm name _).1 _).mpr ?_
    obtain ⟨hlt, hve⟩ := List.getElem?_eq_some_iff.mp hv
    refine ⟨(c.hosts.take after.length).map (CHost.toVhost ca fd), (c.hosts.drop (after.length + 1)).map (CHost.toVhost ca fd), ?_, (hmatch v x hvx).mpr hx, ?_⟩
    · rw [← List.map_cons, ← List.map_append, ← hve, ← List.drop_eq_getElem_cons hlt, List.take_append_drop]
    · intro w hw
      obtain ⟨v', hv', rfl⟩ := List.mem_map.mp hw
      obtain ⟨j, hj⟩ := List.mem_iff_getElem?.mp hv'
      have hjl : j < after.length := by
        rcases Nat.lt_or_ge j after.length with h | h
        · exact h
        · rw [List.getElem?_take, if_neg (by omega)] at hj; cases hj
      rw [List.getElem?_take_of_lt hjl] at hj
      have := hget j
      rw [hj, hrev, List.getElem?_append_left (by simpa using hjl)] at this
      simp only [Option.map_some] at this
      obtain ⟨y, hy, hye⟩ := Option.map_eq_some_iff.mp this.symm
      rw [hmatch v' y hye.symm]
      exact ha y (List.mem_reverse.mp (List.mem_of_getElem? hy))
  · intro hn
    refine (C16_first_matching_host fnm name _).2.mpr fun w hw => ?_
    obtain ⟨v', hv', rfl⟩ := List.mem_map.mp hw
    obtain ⟨j, hj⟩ := List.mem_iff_getElem?.mp hv'
    have := hget j
    rw [hj] at this
    simp only [Option.map_some] at this
    obtain ⟨y, hy, hye⟩ := Option.map_eq_some_iff.mp this.symm
    rw [hmatch v' y hye.symm]
    exact hn y (List.mem_reverse.mp (List.mem_of_getElem? hy))

/-! ## C72 -/

/-- **C72.** The global settings of an accepted file are those it gives, the previous ones where it gives none. -/
theorem C72_global (env : PEnv) (hr : Resolves env) (c0 c : CConf) (hf : Fresh c0) (ds : List Directive)
    (h : parseConf env c0 ds = .ok (c, true)) : GlobalMeans env c0 ds c := (parse_inv hr hf h).glob

/-- **C72.** Every server of an accepted file has a certificate and a key, and listens exactly on the addresses of its `listen on` directives, at
least one; without directives, on those of the default host and port as they are at its place in the file. -/
theorem C72_servers (env : PEnv) (hr : Resolves env) (c0 c : CConf) (hf : Fresh c0) (ds : List Directive)
    (h : parseConf env c0 ds = .ok (c, true)) :
    c.hosts.length = (serversWithPrefix [] ds).length ∧
    ∀ (i : Nat) v x, c.hosts[i]? = some v → (serversWithPrefix [] ds).reverse[i]? = some x →
      v.domain = x.2.1 ∧ v.certPath = lastOf certOf x.2.2 ∧ v.certPath ≠ none ∧ v.keyPath = lastOf keyOf x.2.2 ∧ v.keyPath ≠ none ∧
      v.addrs ≠ [] ∧ (v.addrs.map (·.ai)).Nodup ∧
      ∀ a : LAddr, a ∈ v.addrs ↔ ∃ l ∈ listensOf (defaultHostOf x.1) (defaultPortOf x.1) x.2.2, (a.ai, a.proxy) ∈ resolved env l := by
  have hi := parse_inv hr hf h
  have hok : FileOk env ds := (C69_accepted_partial env hr c0 hf ds c true h).mp rfl
  have hfm : ∀ (ds pre : List Directive), (serversWithPrefix pre ds).map (·.2) = ds.filterMap serverOf := by
    intro ds
    induction ds with
    | nil => intro pre; rfl
    | cons d r ih =>
      intro pre
      cases d with
      | server n b =>
        rw [serversWithPrefix, List.map_cons, ih]
        exact (List.filterMap_cons_some (f := serverOf) (a := .server n b) (b := (n, b)) rfl).symm
      | _ => rw [List.filterMap_cons_none rfl]; exact ih _
  have hmem : ∀ (ds pre : List Directive) x, x ∈ serversWithPrefix pre ds → Directive.server x.2.1 x.2.2 ∈ ds := by
    intro ds
    induction ds with
    | nil => intro pre x hx; simp [serversWithPrefix] at hx
    | cons d r ih =>
      intro pre x hx
      cases d with
      | server n b =>
        simp only [serversWithPrefix, List.mem_cons] at hx
        rcases hx with rfl | hx
        · simp
        · exact List.mem_cons_of_mem _ (ih _ x hx)
      | _ => exact List.mem_cons_of_mem _ (ih _ x hx)
  have hlen : c.hosts.length = (serversWithPrefix [] ds).length := by
    have := congrArg List.length hi.addrs
    simpa using this
  refine ⟨hlen, fun i v x hv hx => ?_⟩
  have h1 : Res.ok (v.addrs, 0) = addAll [] (prefPairs env [x]) := by
    have := congrArg (fun l => l[i]?) hi.addrs
    simp only [List.getElem?_map, hv, hx, Option.map_some, Option.some.injEq] at this
    exact this
  have h2 : noAddrs v = genHost env c.fcgi x.2 := by
    have := congrArg (fun l => l[i]?) hi.hosts
    rw [← hfm ds [], ← List.map_reverse] at this
    simp only [List.getElem?_map, hv, hx, Option.map_some, Option.some.injEq] at this
    exact this
  have hxm := List.mem_reverse.mp (List.mem_of_getElem? hx)
  obtain ⟨d1, d2, d3, d4⟩ := hok.1 _ (hmem ds [] x hxm)
  have e1 : v.certPath = lastOf certOf x.2.2 := congrArg CHost.certPath h2
  have e2 : v.keyPath = lastOf keyOf x.2.2 := congrArg CHost.keyPath h2
  obtain ⟨a1, a2, a3, a4, a5, a6⟩ := addAll_spec _ _ _ _ (by simp [DistinctAddrs]) h1.symm
  have hpp : ∀ y, y ∈ prefPairs env [x] ↔ ∃ l ∈ listensOf (defaultHostOf x.1) (defaultPortOf x.1) x.2.2, y ∈ resolved env l := by
    intro y; simp [prefPairs]
  have haddr : ∀ a : LAddr, a ∈ v.addrs ↔ (a.ai, a.proxy) ∈ prefPairs env [x] := by
    intro a
    constructor
    · intro ha
      rcases a5 a ha with h | h
      · simp at h
      · exact h
    · intro ha
      have := a4 rfl _ ha
      simpa using this
  refine ⟨congrArg CHost.domain h2, e1, by rw [e1]; exact d3, e2, by rw [e2]; exact d4, ?_, a1, fun a => by rw [haddr, hpp]⟩
  have hlne : listensOf (defaultHostOf x.1) (defaultPortOf x.1) x.2.2 ≠ [] := by
    unfold listensOf
    cases hl : x.2.2.filterMap listenOf <;> simp
  obtain ⟨l, t, hlt⟩ := List.exists_cons_of_ne_nil hlne
  have hlm : l ∈ listensOf (defaultHostOf x.1) (defaultPortOf x.1) x.2.2 := by rw [hlt]; simp
  have hlr := (prefResolve_iff env ds).mpr hok.2.1 x hxm l hlm
  obtain ⟨y, t', hy⟩ := List.exists_cons_of_ne_nil (resolved_ne hr hlr)
  intro he
  have := (haddr ⟨y.1, y.2⟩).mpr ((hpp _).mpr ⟨l, hlm, by rw [hy]; simp⟩)
  rw [he] at this
  cases this

example : (parseConf cfEnv confNew cfFile).val?.map (fun x => (x.1.hosts.map (·.domain), x.1.hosts.map (fun h => h.addrs.map (·.ai.family)), x.1.logFacility, x.1.logFormat, x.1.prefork))
    = some ([b%"*", b%"example.com"], [[2], [10]], 8, 1, 2) := by decide +kernel

/-! ## C73 and C74 -/

/-- all but the settings a reload keeps -/
def strip3 (c : CConf) : CConf := { c with chroot := [], prefork := 0, logFormat := 0 }

theorem confAction_strip (env : PEnv) (c1 c2 c1' : CConf) (d : Directive) (h : strip3 c1 = strip3 c2) (h1 : confAction env c1 d = .ok c1') :
    ∃ c2', confAction env c2 d = .ok c2' ∧ strip3 c1' = strip3 c2' := by
  obtain ⟨a1, a2, a3, a4, a5, a6, a7, a8, a9, a10, a11, a12, a13, a14, a15⟩ := c1
  obtain ⟨b1, b2, b3, b4, b5, b6, b7, b8, b9, b10, b11, b12, b13, b14, b15⟩ := c2
  simp only [strip3, CConf.mk.injEq, true_and] at h
  obtain ⟨rfl, rfl, rfl, rfl, rfl, rfl, rfl, rfl, rfl, rfl, rfl, rfl⟩ := h
  cases d with
  | server n body =>
    simp only [confAction] at h1 ⊢
    cases hs : srvActions env ⟨a10, a11, newHost n, a15 + tooLong 256 n⟩ body with
    | ub => rw [hs] at h1; cases h1
    | err => rw [hs] at h1; cases h1
    | ok s =>
      rw [hs] at h1
      simp only at h1 ⊢
      cases hc : closeHost env a13 a14 s with
      | ub => rw [hc] at h1; cases h1
      | err => rw [hc] at h1; cases h1
      | ok s' => rw [hc] at h1; simp only [Res.ok.injEq] at h1; subst h1; exact ⟨_, rfl, rfl⟩
  | types ts =>
    simp only [confAction] at h1 ⊢
    cases hs : addTypes a9 ts with
    | ub => rw [hs] at h1; cases h1
    | err => rw [hs] at h1; cases h1
    | ok m => rw [hs] at h1; simp only [Res.ok.injEq] at h1; subst h1; exact ⟨_, rfl, rfl⟩
  | protocols s =>
    simp only [confAction] at h1 ⊢
    cases hs : env.protos s with
    | none => rw [hs] at h1; simp only [Res.ok.injEq] at h1; subst h1; exact ⟨_, rfl, rfl⟩
    | some m => rw [hs] at h1; simp only [Res.ok.injEq] at h1; subst h1; exact ⟨_, rfl, rfl⟩
  | logStyle s =>
    simp only [confAction] at h1 ⊢
    cases hs : styleOf s with
    | none => rw [hs] at h1; simp only [Res.ok.injEq] at h1; subst h1; exact ⟨_, rfl, rfl⟩
    | some m => rw [hs] at h1; simp only [Res.ok.injEq] at h1; subst h1; exact ⟨_, rfl, rfl⟩
  | _ => simp only [confAction, Res.ok.injEq] at h1 ⊢; subst h1; exact ⟨_, rfl, rfl⟩

theorem confActions_strip (env : PEnv) (ds : List Directive) : ∀ (c1 c2 c1' : CConf), strip3 c1 = strip3 c2 → confActions env c1 ds = .ok c1' →
    ∃ c2', confActions env c2 ds = .ok c2' ∧ strip3 c1' = strip3 c2' := by
  induction ds with
  | nil => intro c1 c2 c1' h h1; simp only [confActions, Res.ok.injEq] at h1; subst h1; exact ⟨_, rfl, h⟩
  | cons d r ih =>
    intro c1 c2 c1' h h1
    rw [confActions] at h1
    cases hd : confAction env c1 d with
    | ub => rw [hd] at h1; cases h1
    | err => rw [hd] at h1; cases h1
    | ok c =>
      rw [hd] at h1
      obtain ⟨c', k1, k2⟩ := confAction_strip env c1 c2 c d h hd
      obtain ⟨c'', k3, k4⟩ := ih c c' c1' k2 h1
      exact ⟨c'', by rw [confActions, k1]; exact k3, k4⟩

theorem parse_strip {env : PEnv} {ds : List Directive} {c1 c2 c1' : CConf} {b : Bool} (h : strip3 c1 = strip3 c2) (h1 : parseConf env c1 ds = .ok (c1', b)) :
    ∃ c2', parseConf env c2 ds = .ok (c2', b) ∧ strip3 c1' = strip3 c2' := by
  unfold parseConf at h1 ⊢
  cases hd : confActions env { c1 with defaultHost := none, defaultPort := 1965, errors := 0 } ds with
  | ub => rw [hd] at h1; cases h1
  | err => rw [hd] at h1; cases h1
  | ok c =>
    rw [hd] at h1
    simp only [Res.ok.injEq, Prod.mk.injEq] at h1
    obtain ⟨rfl, rfl⟩ := h1
    obtain ⟨c', k1, k2⟩ := confActions_strip env ds _ { c2 with defaultHost := none, defaultPort := 1965, errors := 0 } _
      (by simp only [strip3, CConf.mk.injEq] at h ⊢; simp_all) hd
    refine ⟨c', ?_, k2⟩
    rw [k1]
    have : (strip3 c).errors = (strip3 c').errors := by rw [k2]
    have : c.errors = c'.errors := this
    simp [this]

/-- starting with a file -/
theorem start_cases {env : PEnv} {home : Bytes → Option Bytes} {ds : List Directive} {c : CConf} (h : mainStart env home ds = some c) :
    ∃ p, parseConf env confNew ds = .ok (p, true) ∧ { c with chroot := p.chroot } = p ∧ ((p.chroot ≠ [] ∨ p.user = []) → c = p) := by
  unfold mainStart at h
  split at h
  · rename_i p hp
    refine ⟨p, hp, ?_⟩
    split at h
    · cases h
    · rename_i hn
      split at h
      · simp only [Option.some.injEq] at h; subst h; exact ⟨rfl, fun _ => rfl⟩
      · rename_i hu
        split at h
        · cases h
        · simp only [Option.some.injEq] at h
          subst h
          split
          · rename_i hc
            exact ⟨rfl, fun h => absurd h (by simp [hc, hu])⟩
          · exact ⟨rfl, fun _ => rfl⟩
  · cases h

theorem reload_of_start {env : PEnv} (hr : Resolves env) {home : Bytes → Option Bytes} {ds ds' : List Directive} {c c' : CConf}
    (h : mainStart env home ds = some c) (h' : mainStart env home ds' = some c') :
    ∃ r, mainReload env c ds' = some r ∧ strip3 r = strip3 c' ∧ r.prefork = c.prefork ∧
      r.logFormat = ((lastOf logStyleOf ds').bind styleNumber).getD c.logFormat ∧ r.chroot = (lastOf chrootOf ds').getD [] := by
  obtain ⟨p, hp, hp1, hp2⟩ := start_cases h
  obtain ⟨p', hq, hq1, hq2⟩ := start_cases h'
  obtain ⟨r, k1, k2⟩ := parse_strip (c2 := confPurge c) (by simp [strip3, confPurge, confNew]) hq
  have hg := C72_global env hr (confPurge c) r (fresh_purge c) ds' k1
  have e' : strip3 c' = strip3 p' := by
    rw [← hq1]; rfl
  refine ⟨{ r with prefork := c.prefork }, by unfold mainReload; rw [k1], ?_, rfl, hg.logFormat, hg.chroot⟩
  rw [e', k2]
  rfl

/-- **C73, in part.** Reloading the file with which the program was started succeeds and gives the same configuration, but for the chroot directory, which
is also the same if the file names it or names no user. -/
theorem C73_same_file_partial (env : PEnv) (hr : Resolves env) (home : Bytes → Option Bytes) (ds : List Directive) (c : CConf)
    (h : mainStart env home ds = some c) :
    ∃ r, mainReload env c ds = some r ∧ { r with chroot := c.chroot } = c ∧
      (((∃ s, lastOf chrootOf ds = some s ∧ s ≠ []) ∨ (lastOf userOf ds).getD [] = []) → r = c ∧ accessLogPath r = accessLogPath c) := by
  obtain ⟨r, k1, k2, k3, k4, k5⟩ := reload_of_start hr h h
  obtain ⟨p, hp, hp1, hp2⟩ := start_cases h
  have hg := C72_global env hr confNew p fresh_new ds hp
  have hlf : c.logFormat = p.logFormat := by rw [← hp1]
  have hr1 : { r with chroot := c.chroot } = c := by
    have e1 : r.logFormat = c.logFormat := by
      rw [k4]
      cases hl : (lastOf logStyleOf ds).bind styleNumber with
      | none => rfl
      | some v => rw [hlf, hg.logFormat, hl]; rfl
    simp only [strip3, CConf.mk.injEq, true_and] at k2
    cases r; cases c
    simp only at k2 k3 e1 ⊢
    obtain ⟨rfl, rfl, rfl, rfl, rfl, rfl, rfl, rfl, rfl, rfl, rfl, rfl⟩ := k2
    subst k3 e1
    rfl
  refine ⟨r, k1, hr1, fun hc => ?_⟩
  have hu : p.chroot ≠ [] ∨ p.user = [] := by
    rcases hc with ⟨s, hs, hne⟩ | hu
    · left; rw [hg.chroot, hs]; exact hne
    · right; rw [hg.user]; exact hu
  have hcp := hp2 hu
  have : r.chroot = c.chroot := by rw [k5, hcp, hg.chroot]; rfl
  have : r = c := by
    rw [← hr1, ← this]
  exact ⟨this, by rw [this]⟩

/-- **C73, the rest is false.** With `user` and without `chroot` the access log is in the home directory of the user at startup, and elsewhere after a reload
of the same file. -/
theorem C73_chroot_lost :
    (mainStart cfEnv (fun _ => some b%"/var/gmid") [.user b%"_gmid", .logAccess b%"log/access"]).bind accessLogPath = some b%"/var/gmid/log/access" ∧
    ((mainStart cfEnv (fun _ => some b%"/var/gmid") [.user b%"_gmid", .logAccess b%"log/access"]).bind fun c =>
      mainReload cfEnv c [.user b%"_gmid", .logAccess b%"log/access"]).bind accessLogPath = some b%"log/access" := by decide +kernel

/-- **C74, in part.** Reloading a file with which the program would start has the effect of starting with it, but for the number of processes and the chroot
directory, if the file gives the log style or the log style in use is the default one. -/
theorem C74_restart_partial (env : PEnv) (hr : Resolves env) (home : Bytes → Option Bytes) (ds ds' : List Directive) (c c' : CConf)
    (h : mainStart env home ds = some c) (h' : mainStart env home ds' = some c')
    (hs : (∃ s, lastOf logStyleOf ds' = some s) ∨ c.logFormat = 3) :
    ∃ r, mainReload env c ds' = some r ∧ { r with chroot := c'.chroot, prefork := c'.prefork } = c' := by
  obtain ⟨r, k1, k2, k3, k4, k5⟩ := reload_of_start hr h h'
  obtain ⟨p, hp, hp1, hp2⟩ := start_cases h'
  have hg := C72_global env hr confNew p fresh_new ds' hp
  have hok : FileOk env ds' := (C69_accepted_partial env hr confNew fresh_new ds' p true hp).mp rfl
  have hlf : c'.logFormat = p.logFormat := by rw [← hp1]
  refine ⟨r, k1, ?_⟩
  have e1 : r.logFormat = c'.logFormat := by
    rw [k4, hlf, hg.logFormat]
    rcases hs with ⟨s, hs⟩ | hs
    · have hmem : Directive.logStyle s ∈ ds' := by
        obtain ⟨d, hd1, hd2⟩ := List.mem_filterMap.mp (List.mem_of_getLast? hs)
        cases d <;> simp [logStyleOf] at hd2
        subst hd2; exact hd1
      have hst := hok.1 _ hmem
      simp only [DirectiveOk, List.mem_cons, List.not_mem_nil, or_false] at hst
      rw [hs]
      rcases hst with rfl | rfl | rfl | rfl <;> rfl
    · rw [hs]; rfl
  simp only [strip3, CConf.mk.injEq, true_and] at k2
  cases r; cases c'
  simp only at k2 e1 ⊢
  obtain ⟨rfl, rfl, rfl, rfl, rfl, rfl, rfl, rfl, rfl, rfl, rfl, rfl⟩ := k2
  subst e1
  rfl

/-- **C74.** What starting means: the program (run by root) starts with a file exactly when the file is valid, names a user if it names a chroot
directory, and the user it names, if any, exists. -/
theorem C74_starts (env : PEnv) (hr : Resolves env) (home : Bytes → Option Bytes) (ds : List Directive)
    (hd : ∃ c b, parseConf env confNew ds = .ok (c, b)) :
    (mainStart env home ds).isSome ↔
      FileOk env ds ∧ ((lastOf chrootOf ds).getD [] ≠ [] → (lastOf userOf ds).getD [] ≠ []) ∧
        ((lastOf userOf ds).getD [] ≠ [] → (home ((lastOf userOf ds).getD [])).isSome) := by
  obtain ⟨c, b, h⟩ := hd
  have hb := C69_accepted_partial env hr confNew fresh_new ds c b h
  cases b with
  | false =>
    have : ¬ FileOk env ds := fun k => by simpa using hb.mpr k
    unfold mainStart
    rw [h]
    simp [this]
  | true =>
    have hg := C72_global env hr confNew c fresh_new ds h
    have hok := hb.mp rfl
    have hu : c.user = (lastOf userOf ds).getD [] := by rw [hg.user]; rfl
    have hc : c.chroot = (lastOf chrootOf ds).getD [] := by rw [hg.chroot]; rfl
    unfold mainStart
    rw [h]
    simp only
    rw [← hu, ← hc]
    by_cases u : c.user = []
    · by_cases k : c.chroot = [] <;> simp [u, k, hok]
    · cases hh : home c.user <;> simp [u, hok, hh]

example : (mainStart cfEnv (fun _ => some b%"/home") [.chroot b%"/var/gmid"]).isSome = false ∧
    (mainStart cfEnv (fun _ => some b%"/home") [.chroot b%"/var/gmid", .user b%"_gmid"]).isSome = true ∧
    (mainStart cfEnv (fun _ => none) [.user b%"_gmid"]).isSome = false := by decide +kernel

/-- **C74, the rest is false.** The log style of the previous file stays in use when the new one does not give any. -/
theorem C74_log_style_kept :
    (mainStart cfEnv (fun _ => none) []).map (·.logFormat) = some 3 ∧
    ((mainStart cfEnv (fun _ => none) [.logStyle b%"common"]).bind fun c => mainReload cfEnv c []).map (·.logFormat) = some 1 := by decide +kernel

example : (mainStart cfEnv (fun _ => some b%"/home") cfFile).isSome = true := by decide +kernel

/-! ## C75 -/

/-- **C75, in part.** A documented facility other than local0, in any case, with LOG_ or without, is the one used if it is the last one
named, unless the names after it are unknown. -/
theorem C75_facility_partial (env : PEnv) (hr : Resolves env) (c0 c : CConf) (hf : Fresh c0) (ds : List Directive)
    (h : parseConf env c0 ds = .ok (c, true)) (pre post : List Directive) (s : Bytes) (n : Nat) (hd : ds = pre ++ .syslogFacility s :: post)
    (hs : documentedFacility s = some n) (h0 : namesFacility s b%"local0" = false) (hpost : ∀ t, Directive.syslogFacility t ∈ post → documentedFacility t = none) :
    c.logFacility = n := by
  have hg := C72_global env hr c0 c hf ds h
  rw [hg.logFacility, hd]
  have hk : knownFacility s = some n := by simp [knownFacility, h0, hs]
  have hp : post.filterMap facilityDirOf = [] := by
    rw [List.filterMap_eq_nil_iff]
    intro d hd
    cases d with
    | syslogFacility t =>
      have := hpost t hd
      simp only [facilityDirOf, knownFacility, this]
      split <;> rfl
    | _ => rfl
  have hc : facilityDirOf (.syslogFacility s) = some n := hk
  simp [lastOf, List.filterMap_append, List.filterMap_cons_some hc, hp]

/-- **C75, the rest is false.** local0 is documented, but not known: the facility stays the default one, daemon. -/
theorem C75_local0 : documentedFacility b%"local0" = some 128 ∧
    (parseConf cfEnv confNew [.syslogFacility b%"local0"]).val?.map (fun x => (x.1.logFacility, x.2)) = some (24, true) := by decide +kernel

example : documentedFacility b%"LOG_Local7" = some 184 ∧ namesFacility b%"LOG_Local7" b%"local0" = false := by decide +kernel

/-! ## C76 -/

/-- **C76, in part.** The `log` setting that applies to a path: the requests for it are not logged if the server, or a matching location, has
`log off`; they are if neither does. -/
theorem C76_log_partial (env : PEnv) (fs : List FcgiEp) (fnm : Bytes → Bytes → Bool) (ca : Bytes → Nat) (fd : Bytes → Int) (n : Bytes) (body : List SrvOpt) (path : Bytes) :
    vhostDisableLog fnm (some ((hostValue env fs n body).toVhost ca fd)) (some path) = true ↔
      lastOf logOf (body.filterMap optOf) = some false ∨
      ∃ p os, (p, os) ∈ body.filterMap locationOf ∧ lastOf logOf os = some false ∧
        fnm (noSlash p) (if path.head? = some c%'/' then path.tail else path) = true := by
  have hoff : ∀ os : List LocOpt, (((lastOf logOf os).map (!·)).getD false = true ↔ lastOf logOf os = some false) := by
    intro os
    cases lastOf logOf os with
    | none => simp
    | some b => cases b <;> simp
  have hv : ((hostValue env fs n body).toVhost ca fd).dflt.disableLog = ((lastOf logOf (body.filterMap optOf)).map (!·)).getD false := rfl
  have hmem : ∀ l : Location, l ∈ ((hostValue env fs n body).toVhost ca fd).locs ↔
      ∃ p os, (p, os) ∈ body.filterMap locationOf ∧ l = (locValue fs (noSlash p) os).toLocation ca fd := by
    intro l
    simp only [CHost.toVhost, hostValue, serverLocs, List.tail_cons, List.map_map, List.mem_map, Function.comp_apply, Prod.exists]
    constructor
    · rintro ⟨p, os, h1, h2⟩; exact ⟨p, os, h1, h2.symm⟩
    · rintro ⟨p, os, h1, h2⟩; exact ⟨p, os, h1, h2.symm⟩
  obtain ⟨c1, c2⟩ := C15_log fnm ((hostValue env fs n body).toVhost ca fd) path
  rcases C15_exhaustive fnm (·.disableLog = true) ((hostValue env fs n body).toVhost ca fd).locs path with ⟨l, hl⟩ | hn
  · refine ⟨fun _ => .inr ?_, fun _ => c1 l hl⟩
    obtain ⟨b, a, e, s1, s2, _⟩ := hl
    obtain ⟨p, os, m1, rfl⟩ := (hmem l).mp (by rw [e]; simp)
    exact ⟨p, os, m1, (hoff os).mp s1, s2⟩
  · rw [c2 hn, hv, hoff]
    constructor
    · intro h; exact .inl h
    · rintro (h | ⟨p, os, m1, m2, m3⟩)
      · exact h
      · exact absurd ⟨(hoff os).mpr m2, m3⟩ (hn _ ((hmem _).mpr ⟨p, os, m1, rfl⟩))

/-- **C76, the rest is false.** `log on` in a location does not undo the `log off` of its server. -/
theorem C76_log_on_ignored (fnm : Bytes → Bytes → Bool) (_hfn : fnm b%"a/*" b%"a/b" = true) :
    vhostDisableLog fnm (some ((hostValue cfEnv [] b%"h" [.opt (.log false), .location b%"/a/*" [.log true]]).toVhost (fun _ => 1) (fun _ => 3))) (some b%"a/b") = true :=
  (C76_log_partial cfEnv [] fnm _ _ _ _ _).mpr (.inl rfl)

/-! ## C77 -/

/-- the first location whose pattern matches the path -/
def FirstMatching (fnm : Bytes → Bytes → Bool) (locs : List Location) (path : Bytes) (l : Location) : Prop :=
  ∃ before after, locs = before ++ l :: after ∧ LocMatches fnm l path ∧ ∀ x ∈ before, ¬ LocMatches fnm x path

/-- **C77, in part.** The options that the first matching location sets are put into effect, and if there is none, those of the server. -/
theorem C77_first_location_partial (fnm : Bytes → Bytes → Bool) (v : Vhost) (path : Bytes) :
    (∀ l, FirstMatching fnm v.locs path l →
      (l.lang ≠ [] → vhostLang fnm (some v) (some path) = some l.lang) ∧
      (l.defaultMime ≠ [] → vhostDefaultMime fnm (some v) (some path) = l.defaultMime) ∧
      (l.index ≠ [] → vhostIndex fnm (some v) (some path) = l.index) ∧
      (l.autoIndex ≠ 0 → (vhostAutoIndex fnm (some v) (some path) = true ↔ l.autoIndex = 1)) ∧
      (l.blockCode ≠ 0 → vhostBlockReturn fnm (some v) (some path) = some (l.blockCode, l.blockFmt)) ∧
      (l.strip ≠ 0 → vhostStrip fnm (some v) (some path) = l.strip) ∧
      (l.reqca ≠ none → vhostRequireCa fnm (some v) (some path) = l.reqca) ∧
      ((l.fcgi ≠ -1 ∨ l.nofcgi = true) → vhostFastcgi fnm (some v) (some path) = if l.fcgi ≠ -1 then some l else none) ∧
      (l.disableLog = true → vhostDisableLog fnm (some v) (some path) = true)) ∧
    ((∀ l ∈ v.locs, ¬ LocMatches fnm l path) →
      (v.dflt.lang ≠ [] → vhostLang fnm (some v) (some path) = some v.dflt.lang) ∧
      (v.dflt.defaultMime ≠ [] → vhostDefaultMime fnm (some v) (some path) = v.dflt.defaultMime) ∧
      (v.dflt.index ≠ [] → vhostIndex fnm (some v) (some path) = v.dflt.index) ∧
      (vhostAutoIndex fnm (some v) (some path) = true ↔ v.dflt.autoIndex = 1) ∧
      (v.dflt.blockCode ≠ 0 → vhostBlockReturn fnm (some v) (some path) = some (v.dflt.blockCode, v.dflt.blockFmt)) ∧
      vhostStrip fnm (some v) (some path) = v.dflt.strip ∧
      vhostRequireCa fnm (some v) (some path) = v.dflt.reqca ∧
      (v.dflt.fcgi ≠ -1 → vhostFastcgi fnm (some v) (some path) = some v.dflt) ∧
      vhostDisableLog fnm (some v) (some path) = v.dflt.disableLog) := by
  constructor
  · rintro l ⟨b, a, e, hm, hb⟩
    have key : ∀ set : Location → Prop, set l → FirstSet fnm set v.locs path l := fun set hs => ⟨b, a, e, hs, hm, fun x hx h => hb x hx h.2⟩
    exact ⟨fun h => (C15_lang fnm v path).1 l (key _ h), fun h => (C15_default_type fnm v path).1 l (key _ h), fun h => (C15_index fnm v path).1 l (key _ h),
      fun h => (C15_auto_index fnm v path).1 l (key _ h), fun h => (C15_block_return fnm v path).1 l (key _ h), fun h => (C15_strip fnm v path).1 l (key _ h),
      fun h => (C15_client_ca fnm v path).1 l (key _ h), fun h => (C15_fastcgi fnm v path).1 l (key _ h), fun h => (C15_log fnm v path).1 l (key _ h)⟩
  · intro hn
    have key : ∀ set : Location → Prop, NoneSet fnm set v.locs path := fun set x hx h => hn x hx h.2
    refine ⟨fun h => ?_, fun h => ?_, fun h => ?_, (C15_auto_index fnm v path).2 (key _), fun h => ?_, (C15_strip fnm v path).2 (key _), (C15_client_ca fnm v path).2 (key _),
      fun h => ?_, (C15_log fnm v path).2 (key _)⟩
    · rw [(C15_lang fnm v path).2 (key _), if_neg h]
    · rw [(C15_default_type fnm v path).2 (key _), if_neg h]
    · rw [(C15_index fnm v path).2 (key _), if_neg h]
    · rw [(C15_block_return fnm v path).2 (key _), if_neg h]
    · rw [(C15_fastcgi fnm v path).2 (key _), if_pos h]

/-- **C77, the rest is false.** The manual says that the locations after the first matching one are ignored; they are not for the options it does
not set: here the second one blocks a path that matches the first one. -/
theorem C77_later_not_ignored (fnm : Bytes → Bytes → Bool) (h1 : fnm b%"pub/*" b%"pub/x" = true) (h2 : fnm b%"*" b%"pub/x" = true) :
    ∃ c h, parseConf cfEnv confNew [.server b%"h" [.cert b%"/c", .key b%"/k", .opt (.root b%"/var"), .location b%"/pub/*" [.lang b%"it"], .location b%"/*" [.block]]]
        = .ok (c, true) ∧ c.hosts = [h] ∧
      FirstMatching fnm (h.toVhost (fun _ => 1) (fun _ => 3)).locs b%"pub/x" { pat := b%"pub/*", lang := b%"it" } ∧
      vhostBlockReturn fnm (some (h.toVhost (fun _ => 1) (fun _ => 3))) (some b%"pub/x") = some (40, b%"temporary failure") := by
  refine ⟨_, _, rfl, rfl, ⟨[], _, rfl, ?_, by simp⟩, ?_⟩
  · simpa [LocMatches] using h1
  · simp [vhostBlockReturn, CHost.toVhost, CLoc.toLocation, blockLoop, pmatch, dropSlash, fld, setLast, newHost, h2]

end Gmid.Props

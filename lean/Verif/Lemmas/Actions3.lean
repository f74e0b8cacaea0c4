import Verif.Lemmas.Actions2
import Verif.Props.Mime

/-!
# Lemmas about the semantic actions: the whole file
-/

set_option autoImplicit false

namespace Gmid

open Spec Props

theorem pairs_eq (env : PEnv) (body : List SrvOpt) : body.flatMap (srvPairs env) = (body.filterMap listenOf).flatMap (resolved env) := by
  induction body with
  | nil => rfl
  | cons o r ih =>
    rw [List.flatMap_cons, ih]
    cases h : listenOf o with
    | none => simp [srvPairs, h]
    | some l => simp [srvPairs, h]

theorem addAll_nil_iff {rs : List (AddrInfo × Bool)} {q : List LAddr} {e : Nat} (h : addAll [] rs = .ok (q, e)) : q = [] ↔ rs = [] := by
  obtain ⟨_, a2, _⟩ := addAll_spec rs [] q e (by simp [DistinctAddrs]) h
  constructor
  · rintro rfl
    cases rs with
    | nil => rfl
    | cons x r =>
      have := (a2 x.1).mpr (.inr (by simp))
      simp at this
  · rintro rfl
    simp only [addAll, Res.ok.injEq, Prod.mk.injEq] at h
    exact h.1.symm

theorem resolved_ne {env : PEnv} (hr : Resolves env) {l : Option Bytes × Bytes × Bool} (h : env.resolve l.1 l.2.1 ≠ none) : resolved env l ≠ [] := by
  unfold resolved
  cases ha : env.resolve l.1 l.2.1 with
  | none => exact absurd ha h
  | some ais =>
    cases ais with
    | nil => exact absurd ha (hr _ _)
    | cons a r => simp

/-- a server from the opening brace to the closing one -/
theorem server_spec {env : PEnv} (hr : Resolves env) {fs : List FcgiEp} {cq : List LAddr} {name : Bytes} {e0 : Nat} {dh : Option Bytes} {dp : Int}
    {body : List SrvOpt} {s s' : SrvSt} (ho : EpsOk fs) (h1 : srvActions env ⟨fs, cq, newHost name, e0⟩ body = .ok s)
    (h2 : closeHost env dh dp s = .ok s') :
    EpsOk s'.fcgi ∧ s'.fcgi = s.fcgi ∧ noAddrs s'.host = noAddrs s.host ∧ s'.errors ≥ s.errors ∧
    (s'.errors = 0 → e0 = 0 ∧ (∀ o ∈ body, SrvOptOk env o) ∧ s.host.certPath ≠ none ∧ s.host.keyPath ≠ none ∧
      (∀ l ∈ listensOf dh dp body, env.resolve l.1 l.2.1 ≠ none) ∧
      addAll cq ((listensOf dh dp body).flatMap (resolved env)) = .ok (s'.confAddrs, 0) ∧
      addAll [] ((listensOf dh dp body).flatMap (resolved env)) = .ok (s'.host.addrs, 0)) ∧
    ((∀ o ∈ body, SrvOptOk env o) → s.host.certPath ≠ none → s.host.keyPath ≠ none →
      (∀ l ∈ listensOf dh dp body, env.resolve l.1 l.2.1 ≠ none) →
      ∃ eh ec, addAll cq ((listensOf dh dp body).flatMap (resolved env)) = .ok (s'.confAddrs, ec) ∧
        addAll [] ((listensOf dh dp body).flatMap (resolved env)) = .ok (s'.host.addrs, eh) ∧ s'.errors = e0 + eh + ec) := by
  obtain ⟨a1, e, eh, ec, a2, a3, a4, a5⟩ := srvActions_err body ho h1
  simp only [newHost] at a2 a4 a5
  rw [pairs_eq] at a4 a5
  -- the errors of a missing certificate or key
  obtain ⟨s0, ek, hs0, hek, ha0⟩ : ∃ s0 : SrvSt, ∃ ek : Nat, s0 = { s with errors := s.errors + ek } ∧ (ek = 0 ↔ s.host.certPath ≠ none ∧ s.host.keyPath ≠ none) ∧
      (if s0.host.addrs = [] then srvAction env s0 (.listen dh (intDec dp) false) else .ok s0) = .ok s' := by
    by_cases hc : s.host.certPath = none ∨ s.host.keyPath = none
    · refine ⟨_, 1, rfl, ⟨fun h => by omega, fun h => ?_⟩, ?_⟩
      · rcases hc with hc | hc
        · exact absurd hc h.1
        · exact absurd hc h.2
      · unfold closeHost at h2
        simp only [if_pos hc] at h2
        exact h2
    · refine ⟨_, 0, rfl, ⟨fun _ => ⟨fun h => hc (.inl h), fun h => hc (.inr h)⟩, fun _ => rfl⟩, ?_⟩
      unfold closeHost at h2
      simp only [if_neg hc] at h2
      exact h2
  have hl0 : s0.host = s.host := by rw [hs0]
  have hf0 : s0.fcgi = s.fcgi := by rw [hs0]
  have hc0 : s0.confAddrs = s.confAddrs := by rw [hs0]
  have he0 : s0.errors = s.errors + ek := by rw [hs0]
  by_cases hadr : s0.host.addrs = []
  · rw [if_pos hadr] at ha0
    -- the default address
    obtain ⟨b1, e', eh', ec', b2, b3, b4, b5⟩ := srvAction_err (by rw [hf0]; exact a1) ha0
    have hsame : s'.fcgi = s0.fcgi ∧ noAddrs s'.host = noAddrs s0.host := by
      simp only [srvAction] at ha0
      cases hrr : env.resolve dh (intDec dp) with
      | none => rw [hrr] at ha0; simp only [Res.ok.injEq] at ha0; subst ha0; exact ⟨rfl, rfl⟩
      | some ais =>
        rw [hrr] at ha0
        simp only at ha0
        cases hl : listenOn s0.host.addrs s0.confAddrs false ais with
        | ub => rw [hl] at ha0; cases ha0
        | err => rw [hl] at ha0; cases ha0
        | ok x => rw [hl] at ha0; simp only [Res.ok.injEq] at ha0; subst ha0; exact ⟨rfl, rfl⟩
    have hpn : (body.filterMap listenOf).flatMap (resolved env) = [] := (addAll_nil_iff a4).mp (by rw [← hl0]; exact hadr)
    have hln : (∀ o ∈ body, SrvOptOk env o) → body.filterMap listenOf = [] := by
      intro hok
      cases hl : body.filterMap listenOf with
      | nil => rfl
      | cons l r =>
        exfalso
        have hm : l ∈ body.filterMap listenOf := by rw [hl]; simp
        obtain ⟨o, hob, hol⟩ := List.mem_filterMap.mp hm
        have hok := hok o hob
        have : env.resolve l.1 l.2.1 ≠ none := by cases o <;> simp_all [listenOf, SrvOptOk]; subst hol; exact hok
        have := resolved_ne hr this
        rw [hl, List.flatMap_cons] at hpn
        exact this (List.append_eq_nil_iff.mp hpn).1
    rw [hpn] at a4 a5
    simp only [addAll, Res.ok.injEq, Prod.mk.injEq] at a4 a5
    obtain ⟨a4, rfl⟩ := a4
    obtain ⟨a5, rfl⟩ := a5
    have hP : srvPairs env (.listen dh (intDec dp) false) = resolved env (dh, intDec dp, false) := rfl
    rw [hP, hl0, ← a4] at b4
    rw [hP, hc0, ← a5] at b5
    have hL : body.filterMap listenOf = [] → listensOf dh dp body = [(dh, intDec dp, false)] := by intro h; simp [listensOf, h]
    refine ⟨b1, hsame.1.trans hf0, by rw [hsame.2, hl0], by omega, ?_, ?_⟩
    · intro hz
      have hok := a3.mp (by omega)
      have hkk := hek.mp (by omega)
      have := hln hok
      rw [hL this]
      have hbr : env.resolve dh (intDec dp) ≠ none := b3.mp (by omega)
      have x1 : eh' = 0 := by omega
      have x2 : ec' = 0 := by omega
      subst x1 x2
      refine ⟨by omega, hok, hkk.1, hkk.2, ?_, ?_, ?_⟩
      · intro l hlm; simp only [List.mem_singleton] at hlm; subst hlm; exact hbr
      · simpa using b5
      · simpa using b4
    · intro hok hc hk hres
      have := hln hok
      rw [hL this] at hres ⊢
      have z1 := a3.mpr hok
      have z2 := hek.mpr ⟨hc, hk⟩
      have z3 : e' = 0 := b3.mpr (hres (dh, intDec dp, false) (by simp))
      refine ⟨eh', ec', by simpa using b5, by simpa using b4, by omega⟩
  · rw [if_neg hadr] at ha0
    simp only [Res.ok.injEq] at ha0
    subst ha0
    have hpn : (body.filterMap listenOf) ≠ [] := by
      intro hn
      rw [hn] at a4
      exact hadr (by rw [hl0]; exact (addAll_nil_iff a4).mpr rfl)
    have hL : listensOf dh dp body = body.filterMap listenOf := by
      unfold listensOf
      cases hl : body.filterMap listenOf with
      | nil => exact absurd hl hpn
      | cons l r => rfl
    rw [hL, hl0, hc0, hf0, he0]
    refine ⟨a1, rfl, rfl, by omega, ?_, ?_⟩
    · intro hz
      have hok := a3.mp (by omega)
      have hkk := hek.mp (by omega)
      have x1 : eh = 0 := by omega
      have x2 : ec = 0 := by omega
      subst x1 x2
      refine ⟨by omega, hok, hkk.1, hkk.2, ?_, a5, a4⟩
      intro l hlm
      obtain ⟨o, hob, hol⟩ := List.mem_filterMap.mp hlm
      have hoo := hok o hob
      cases o <;> simp_all [listenOf, SrvOptOk]
      subst hol
      exact hoo
    · intro hok hc hk hres
      have z1 := a3.mpr hok
      have z2 := hek.mpr ⟨hc, hk⟩
      exact ⟨eh, ec, a5, a4, by omega⟩

/-! ## The errors of a file -/

theorem defaultHostOf_snoc (pre : List Directive) (d : Directive) (h : ipv6Of d = none) : defaultHostOf (pre ++ [d]) = defaultHostOf pre := by
  unfold defaultHostOf; rw [lastOf_snoc, h]; simp

theorem defaultPortOf_snoc (pre : List Directive) (d : Directive) (h : portOf d = none) : defaultPortOf (pre ++ [d]) = defaultPortOf pre := by
  unfold defaultPortOf; rw [lastOf_snoc, h]; simp

/-- the addresses of these servers -/
def prefPairs (env : PEnv) (xs : List (List Directive × Bytes × List SrvOpt)) : List (AddrInfo × Bool) :=
  xs.flatMap fun x => (listensOf (defaultHostOf x.1) (defaultPortOf x.1) x.2.2).flatMap (resolved env)

/-- the addresses of these servers exist -/
def PrefResolve (env : PEnv) (xs : List (List Directive × Bytes × List SrvOpt)) : Prop :=
  ∀ x ∈ xs, ∀ l ∈ listensOf (defaultHostOf x.1) (defaultPortOf x.1) x.2.2, env.resolve l.1 l.2.1 ≠ none

/-- the state keeps track of the directives so far -/
structure Tracks (pre : List Directive) (c : CConf) : Prop where
  eps : EpsOk c.fcgi
  host : c.defaultHost = defaultHostOf pre
  port : c.defaultPort = defaultPortOf pre

theorem confAction_plain {env : PEnv} {c c' : CConf} {d : Directive} {pre : List Directive} (ht : Tracks pre c) (hs : serverOf d = none)
    (h : confAction env c d = .ok c') :
    Tracks (pre ++ [d]) c' ∧ c'.addrs = c.addrs ∧ c'.hosts = c.hosts ∧ c'.fcgi = c.fcgi ∧ ∃ e, c'.errors = c.errors + e ∧ (e = 0 ↔ DirectiveOk env d) := by
  obtain ⟨t1, t2, t3⟩ := ht
  cases d with
  | server n b => simp [serverOf] at hs
  | chroot s =>
    simp only [confAction, Res.ok.injEq] at h
    subst h
    exact ⟨⟨t1, by rw [defaultHostOf_snoc _ _ rfl]; exact t2, by rw [defaultPortOf_snoc _ _ rfl]; exact t3⟩, rfl, rfl, rfl, _, rfl, tooLong_iff 4096 s (by omega)⟩
  | user s =>
    simp only [confAction, Res.ok.injEq] at h
    subst h
    exact ⟨⟨t1, by rw [defaultHostOf_snoc _ _ rfl]; exact t2, by rw [defaultPortOf_snoc _ _ rfl]; exact t3⟩, rfl, rfl, rfl, _, rfl, tooLong_iff 256 s (by omega)⟩
  | prefork n =>
    simp only [confAction, Res.ok.injEq] at h
    subst h
    refine ⟨⟨t1, by rw [defaultHostOf_snoc _ _ rfl]; exact t2, by rw [defaultPortOf_snoc _ _ rfl]; exact t3⟩, rfl, rfl, rfl, _, rfl, ?_⟩
    simp only [DirectiveOk, checkPreforkNum]
    by_cases a : n ≤ 0 <;> by_cases b : n ≥ 16 <;> simp [a, b] <;> omega
  | ipv6 b =>
    simp only [confAction, Res.ok.injEq] at h
    subst h
    refine ⟨⟨t1, ?_, by rw [defaultPortOf_snoc _ _ rfl]; exact t3⟩, rfl, rfl, rfl, 0, rfl, by simp [DirectiveOk]⟩
    unfold defaultHostOf
    rw [lastOf_snoc]
    cases b <;> simp [ipv6Of]
  | port n =>
    simp only [confAction, Res.ok.injEq] at h
    subst h
    refine ⟨⟨t1, by rw [defaultHostOf_snoc _ _ rfl]; exact t2, ?_⟩, rfl, rfl, rfl, 0, rfl, by simp [DirectiveOk]⟩
    unfold defaultPortOf
    rw [lastOf_snoc]
    simp [portOf]
  | protocols s =>
    simp only [confAction] at h
    cases hp : env.protos s with
    | none =>
      rw [hp] at h
      simp only [Res.ok.injEq] at h
      subst h
      exact ⟨⟨t1, by rw [defaultHostOf_snoc _ _ rfl]; exact t2, by rw [defaultPortOf_snoc _ _ rfl]; exact t3⟩, rfl, rfl, rfl, 1, rfl, by simp [DirectiveOk, hp]⟩
    | some v =>
      rw [hp] at h
      simp only [Res.ok.injEq] at h
      subst h
      exact ⟨⟨t1, by rw [defaultHostOf_snoc _ _ rfl]; exact t2, by rw [defaultPortOf_snoc _ _ rfl]; exact t3⟩, rfl, rfl, rfl, 0, rfl, by simp [DirectiveOk, hp]⟩
  | logStyle s =>
    have hst : styleOf s = none ↔ ¬ s ∈ [b%"combined", b%"common", b%"condensed", b%"legacy"] := by
      unfold styleOf
      by_cases h1 : s = b%"combined"
      · simp [h1]
      by_cases h2 : s = b%"common"
      · simp [h2]
      by_cases h3 : s = b%"condensed"
      · simp [h3]
      by_cases h4 : s = b%"legacy"
      · simp [h4]
      simp [h1, h2, h3, h4]
    simp only [confAction] at h
    cases hp : styleOf s with
    | none =>
      rw [hp] at h
      simp only [Res.ok.injEq] at h
      subst h
      refine ⟨⟨t1, by rw [defaultHostOf_snoc _ _ rfl]; exact t2, by rw [defaultPortOf_snoc _ _ rfl]; exact t3⟩, rfl, rfl, rfl, 1, rfl, ?_⟩
      constructor
      · intro h; omega
      · intro h; exact absurd h (hst.mp hp)
    | some v =>
      rw [hp] at h
      simp only [Res.ok.injEq] at h
      subst h
      refine ⟨⟨t1, by rw [defaultHostOf_snoc _ _ rfl]; exact t2, by rw [defaultPortOf_snoc _ _ rfl]; exact t3⟩, rfl, rfl, rfl, 0, rfl, fun _ => ?_, fun _ => rfl⟩
      apply Classical.not_not.mp
      intro hn
      rw [hst.mpr hn] at hp
      cases hp
  | types ts =>
    simp only [confAction] at h
    cases hp : addTypes c.mime ts with
    | ub => rw [hp] at h; cases h
    | err => rw [hp] at h; cases h
    | ok m =>
      rw [hp] at h
      simp only [Res.ok.injEq] at h
      subst h
      exact ⟨⟨t1, by rw [defaultHostOf_snoc _ _ rfl]; exact t2, by rw [defaultPortOf_snoc _ _ rfl]; exact t3⟩, rfl, rfl, rfl, 0, rfl, by simp [DirectiveOk]⟩
  | logAccess s | syslogFacility s | syslogOff | syslog =>
    simp only [confAction, Res.ok.injEq] at h
    subst h
    exact ⟨⟨t1, by rw [defaultHostOf_snoc _ _ rfl]; exact t2, by rw [defaultPortOf_snoc _ _ rfl]; exact t3⟩, rfl, rfl, rfl, 0, rfl, by simp [DirectiveOk]⟩

theorem srvAction_keys {env : PEnv} {s s' : SrvSt} {o : SrvOpt} (h : srvAction env s o = .ok s') :
    s'.host.certPath = (certOf o).or s.host.certPath ∧ s'.host.keyPath = (keyOf o).or s.host.keyPath := by
  cases o with
  | alias a | cert a | key a | ocsp a | cgi a | proxy a b =>
    simp only [srvAction, Res.ok.injEq] at h
    subst h
    simp [certOf, keyOf]
  | listen hst port v =>
    simp only [srvAction] at h
    cases hr : env.resolve hst port with
    | none => rw [hr] at h; simp only [Res.ok.injEq] at h; subst h; simp [certOf, keyOf]
    | some ais =>
      rw [hr] at h
      simp only at h
      cases hl : listenOn s.host.addrs s.confAddrs v ais with
      | ub => rw [hl] at h; cases h
      | err => rw [hl] at h; cases h
      | ok x => rw [hl] at h; simp only [Res.ok.injEq] at h; subst h; simp [certOf, keyOf]
  | opt o =>
    simp only [srvAction] at h
    cases hl : s.host.locs.getLast? with
    | none => rw [hl] at h; cases h
    | some l =>
      rw [hl] at h
      simp only at h
      cases ha : locAction s.fcgi l o with
      | ub => rw [ha] at h; cases h
      | err => rw [ha] at h; cases h
      | ok x => rw [ha] at h; simp only [Res.ok.injEq] at h; subst h; simp [certOf, keyOf]
  | location path opts =>
    simp only [srvAction] at h
    cases ha : locActions s.fcgi {} opts with
    | ub => rw [ha] at h; cases h
    | err => rw [ha] at h; cases h
    | ok x => rw [ha] at h; simp only [Res.ok.injEq] at h; subst h; simp [certOf, keyOf]

theorem srvActions_keys' {env : PEnv} (body : List SrvOpt) : ∀ {s s' : SrvSt} {pre : List SrvOpt}, s.host.certPath = lastOf certOf pre →
    s.host.keyPath = lastOf keyOf pre → srvActions env s body = .ok s' →
    s'.host.certPath = lastOf certOf (pre ++ body) ∧ s'.host.keyPath = lastOf keyOf (pre ++ body) := by
  induction body with
  | nil =>
    intro s s' pre h1 h2 h
    simp only [srvActions, Res.ok.injEq] at h
    subst h
    simp [h1, h2]
  | cons o r ih =>
    intro s s' pre h1 h2 h
    rw [srvActions] at h
    cases ha : srvAction env s o with
    | ub => rw [ha] at h; cases h
    | err => rw [ha] at h; cases h
    | ok s1 =>
      rw [ha] at h
      obtain ⟨k1, k2⟩ := srvAction_keys ha
      have := ih (s := s1) (pre := pre ++ [o]) (by rw [k1, lastOf_snoc, h1]) (by rw [k2, lastOf_snoc, h2]) h
      simpa using this

theorem srvActions_keys {env : PEnv} {body : List SrvOpt} {fs : List FcgiEp} {cq : List LAddr} {name : Bytes} {e0 : Nat} {s' : SrvSt}
    (h : srvActions env ⟨fs, cq, newHost name, e0⟩ body = .ok s') : s'.host.certPath = lastOf certOf body ∧ s'.host.keyPath = lastOf keyOf body := by
  have := srvActions_keys' body (pre := []) (s := ⟨fs, cq, newHost name, e0⟩) rfl rfl h
  simpa using this

/-- what a server does to the state -/
theorem confAction_server {env : PEnv} (hr : Resolves env) {c c' : CConf} {name : Bytes} {body : List SrvOpt} {pre : List Directive} (ht : Tracks pre c)
    (h : confAction env c (.server name body) = .ok c') :
    Tracks (pre ++ [.server name body]) c' ∧
    (c'.errors = 0 → c.errors = 0 ∧ DirectiveOk env (.server name body) ∧ PrefResolve env [(pre, name, body)] ∧
      addAll c.addrs (prefPairs env [(pre, name, body)]) = .ok (c'.addrs, 0)) ∧
    (DirectiveOk env (.server name body) → PrefResolve env [(pre, name, body)] →
      ∃ eh ec hq, addAll c.addrs (prefPairs env [(pre, name, body)]) = .ok (c'.addrs, ec) ∧
        addAll [] (prefPairs env [(pre, name, body)]) = .ok (hq, eh) ∧ c'.errors = c.errors + eh + ec) ∧
    (c'.errors = 0 → c.fcgi.Nodup → ∃ s h, SrvInv env name body s ∧ s.fcgi = c'.fcgi ∧ c.fcgi <+: c'.fcgi ∧ c'.hosts = h :: c.hosts ∧ noAddrs h = noAddrs s.host ∧
      addAll [] (prefPairs env [(pre, name, body)]) = .ok (h.addrs, 0)) := by
  obtain ⟨t1, t2, t3⟩ := ht
  simp only [confAction] at h
  cases h1 : srvActions env ⟨c.fcgi, c.addrs, newHost name, c.errors + tooLong 256 name⟩ body with
  | ub => rw [h1] at h; cases h
  | err => rw [h1] at h; cases h
  | ok s =>
    rw [h1] at h
    simp only at h
    cases h2 : closeHost env c.defaultHost c.defaultPort s with
    | ub => rw [h2] at h; cases h
    | err => rw [h2] at h; cases h
    | ok s' =>
      rw [h2] at h
      simp only [Res.ok.injEq] at h
      obtain ⟨a1, a2, a3, a4, a5, a6⟩ := server_spec hr t1 h1 h2
      rw [t2, t3] at a5 a6
      have hpp : prefPairs env [(pre, name, body)] = (listensOf (defaultHostOf pre) (defaultPortOf pre) body).flatMap (resolved env) := by simp [prefPairs]
      have hpr : PrefResolve env [(pre, name, body)] ↔ ∀ l ∈ listensOf (defaultHostOf pre) (defaultPortOf pre) body, env.resolve l.1 l.2.1 ≠ none := by
        simp [PrefResolve]
      have hnl := tooLong_iff 256 name (by omega)
      -- the certificate and the key are those of the last directives
      have hck : s.host.certPath = lastOf certOf body ∧ s.host.keyPath = lastOf keyOf body := srvActions_keys h1
      rw [hck.1, hck.2] at a5 a6
      rw [hpp, hpr]
      subst h
      refine ⟨⟨a1, by rw [defaultHostOf_snoc _ _ rfl]; exact t2, by rw [defaultPortOf_snoc _ _ rfl]; exact t3⟩, ?_, ?_, ?_⟩
      · intro hz
        obtain ⟨b1, b2, b3, b4, b5, b6, b7⟩ := a5 hz
        exact ⟨by omega, ⟨hnl.mp (by omega), b2, b3, b4⟩, b5, b6⟩
      · intro hd hres
        obtain ⟨d1, d2, d3, d4⟩ := hd
        obtain ⟨eh, ec, b1, b2, b3⟩ := a6 d2 d3 d4 hres
        exact ⟨eh, ec, s'.host.addrs, b1, b2, by have := hnl.mpr d1; simp only; omega⟩
      · intro hz hn
        obtain ⟨b1, b2, b3, b4, b5, b6, b7⟩ := a5 hz
        simp only at hz
        have hl : name.length ≤ 255 := hnl.mp (by omega)
        obtain ⟨c1, c2⟩ := srvActions_val body (s := ⟨c.fcgi, c.addrs, newHost name, c.errors + tooLong 256 name⟩) (body := []) t1 (newHost_inv hn _ _ hl) h1 (by omega)
        rw [List.nil_append] at c1
        simp only at c2
        exact ⟨s, s'.host, c1, a2.symm, by rw [a2]; exact c2, rfl, a3, b7⟩

theorem swp_cons (pre : List Directive) (d : Directive) (r : List Directive) :
    serversWithPrefix pre (d :: r) = serversWithPrefix pre [d] ++ serversWithPrefix (pre ++ [d]) r := by
  cases d <;> simp [serversWithPrefix]

theorem swp_plain {pre : List Directive} {d : Directive} (h : serverOf d = none) : serversWithPrefix pre [d] = [] := by
  cases d <;> simp_all [serversWithPrefix, serverOf]

theorem swp_append (ds : List Directive) : ∀ (pre : List Directive) (d : Directive),
    serversWithPrefix pre (ds ++ [d]) = serversWithPrefix pre ds ++ serversWithPrefix (pre ++ ds) [d] := by
  induction ds with
  | nil => intro pre d; simp [serversWithPrefix]
  | cons x r ih =>
    intro pre d
    rw [List.cons_append, swp_cons, ih, swp_cons pre x r]
    simp

theorem prefPairs_append (env : PEnv) (a b : List (List Directive × Bytes × List SrvOpt)) : prefPairs env (a ++ b) = prefPairs env a ++ prefPairs env b := by
  simp [prefPairs]

theorem confActions_err {env : PEnv} (hr : Resolves env) (ds : List Directive) : ∀ {c c' : CConf} {pre : List Directive}, Tracks pre c →
    confActions env c ds = .ok c' →
    Tracks (pre ++ ds) c' ∧
    (c'.errors = 0 → c.errors = 0 ∧ (∀ d ∈ ds, DirectiveOk env d) ∧ PrefResolve env (serversWithPrefix pre ds) ∧
      addAll c.addrs (prefPairs env (serversWithPrefix pre ds)) = .ok (c'.addrs, 0)) ∧
    ((∀ d ∈ ds, DirectiveOk env d) → PrefResolve env (serversWithPrefix pre ds) → Consistent (prefPairs env (serversWithPrefix pre ds)) →
      ∃ ec, addAll c.addrs (prefPairs env (serversWithPrefix pre ds)) = .ok (c'.addrs, ec) ∧ c'.errors = c.errors + ec) := by
  induction ds with
  | nil =>
    intro c c' pre ht h
    simp only [confActions, Res.ok.injEq] at h
    subst h
    refine ⟨by simpa using ht, fun h => ⟨h, by simp, by simp [PrefResolve, serversWithPrefix], rfl⟩, fun _ _ _ => ⟨0, rfl, rfl⟩⟩
  | cons d r ih =>
    intro c c' pre ht h
    rw [confActions] at h
    cases h1 : confAction env c d with
    | ub => rw [h1] at h; cases h
    | err => rw [h1] at h; cases h
    | ok c1 =>
      rw [h1] at h
      simp only at h
      cases hs : serverOf d with
      | none =>
        obtain ⟨a1, a2, a3, a4, e, a5, a6⟩ := confAction_plain ht hs h1
        obtain ⟨b1, b2, b3⟩ := ih a1 h
        rw [swp_cons, swp_plain hs, List.nil_append, ← a2]
        refine ⟨by simpa using b1, fun hz => ?_, fun hd hres hcon => ?_⟩
        · obtain ⟨x1, x2, x3, x4⟩ := b2 hz
          exact ⟨by omega, by simpa using ⟨a6.mp (by omega), x2⟩, x3, x4⟩
        · obtain ⟨ec, y1, y2⟩ := b3 (fun x hx => hd x (by simp [hx])) hres hcon
          have := a6.mpr (hd d (by simp))
          exact ⟨ec, y1, by omega⟩
      | some x =>
        obtain ⟨name, body⟩ := x
        have hd' : d = .server name body := by cases d <;> simp_all [serverOf]
        subst hd'
        obtain ⟨a1, a2, a3, _⟩ := confAction_server hr ht h1
        obtain ⟨b1, b2, b3⟩ := ih a1 h
        have hsw : serversWithPrefix pre (.server name body :: r) = [(pre, name, body)] ++ serversWithPrefix (pre ++ [.server name body]) r := by
          simp [serversWithPrefix]
        rw [hsw, prefPairs_append]
        have hpr : PrefResolve env ([(pre, name, body)] ++ serversWithPrefix (pre ++ [.server name body]) r) ↔
            PrefResolve env [(pre, name, body)] ∧ PrefResolve env (serversWithPrefix (pre ++ [.server name body]) r) := by
          simp [PrefResolve]
        rw [hpr]
        refine ⟨by simpa using b1, fun hz => ?_, fun hd hres hcon => ?_⟩
        · obtain ⟨x1, x2, x3, x4⟩ := b2 hz
          obtain ⟨y1, y2, y3, y4⟩ := a2 x1
          exact ⟨y1, by simpa using ⟨y2, x2⟩, ⟨y3, x3⟩, addAll_trans y4 x4⟩
        · obtain ⟨eh, ec, hq, y1, y2, y3⟩ := a3 (hd _ (by simp)) hres.1
          obtain ⟨ec', z1, z2⟩ := b3 (fun x hx => hd x (by simp [hx])) hres.2 (consistent_sub hcon (fun x hx => List.mem_append.mpr (.inr hx)))
          have : eh = 0 := (addAll_spec _ _ _ _ (by simp [DistinctAddrs]) y2).2.2.2.2.2 (by simpa using consistent_sub hcon (fun x hx => List.mem_append.mpr (.inl hx)))
          exact ⟨ec + ec', addAll_trans y1 z1, by omega⟩

theorem addAll_consistent {rs : List (AddrInfo × Bool)} {q : List LAddr} (h : addAll [] rs = .ok (q, 0)) : Consistent rs := by
  obtain ⟨a1, a2, a3, a4, a5, a6⟩ := addAll_spec rs [] q 0 (by simp [DistinctAddrs]) h
  intro x hx y hy hxy
  have m1 := a4 rfl x hx
  have m2 := a4 rfl y hy
  have inj : ∀ (l : List LAddr), (l.map (·.ai)).Nodup → ∀ u ∈ l, ∀ v ∈ l, u.ai = v.ai → u = v := by
    intro l
    induction l with
    | nil => intro _ u hu; cases hu
    | cons z t ih =>
      intro hn u hu v hv huv
      simp only [List.map_cons, List.nodup_cons] at hn
      rcases List.mem_cons.mp hu with rfl | hu'
      · rcases List.mem_cons.mp hv with rfl | hv'
        · rfl
        · exact absurd (List.mem_map.mpr ⟨v, hv', huv.symm⟩) hn.1
      · rcases List.mem_cons.mp hv with rfl | hv'
        · exact absurd (List.mem_map.mpr ⟨u, hu', huv⟩) hn.1
        · exact ih hn.2 u hu' v hv' huv
  have := inj q a1 _ m1 _ m2 hxy
  exact congrArg LAddr.proxy this

/-! ## The values of a file -/

/-- a server with the options its locations get -/
def genHost (env : PEnv) (fs : List FcgiEp) (x : Bytes × List SrvOpt) : CHost :=
  { hostValue env fs x.1 x.2 with locs := (blocks x.2).map fun b => locValue fs b.1 b.2 }

theorem genHost_first {env : PEnv} {fs : List FcgiEp} {x : Bytes × List SrvOpt} (h : OptsFirst x.2) : genHost env fs x = hostValue env fs x.1 x.2 := by
  unfold genHost
  rw [blocks_first h]
  simp [hostValue, serverLocs]

structure FileInv (env : PEnv) (c0 : CConf) (pre : List Directive) (c : CConf) : Prop where
  nodup : c.fcgi.Nodup
  decl : ∀ x ∈ pre.filterMap serverOf, ∀ b ∈ blocks x.2, Declared c.fcgi b.2
  hosts : c.hosts.map noAddrs = (pre.filterMap serverOf).reverse.map (genHost env c.fcgi)
  addrs : c.hosts.map (fun h => Res.ok (h.addrs, 0)) = (serversWithPrefix [] pre).reverse.map (fun x => addAll [] (prefPairs env [x]))
  glob : GlobalMeans env c0 pre c
  wf : MimeWf c.mime

theorem addExts_spec (mt : Bytes) (xs : List Bytes) : ∀ {m m' : MimeTab}, MimeWf m → addExts m mt xs = .ok m' →
    MimeWf m' ∧ m'.entries = m.entries ++ xs.map fun x => ⟨mt, x⟩ := by
  induction xs with
  | nil => intro m m' hw h; simp only [addExts, Res.ok.injEq] at h; subst h; exact ⟨hw, by simp⟩
  | cons x r ih =>
    intro m m' hw h
    rw [addExts] at h
    obtain ⟨m1, b, h1, h2, _, h4⟩ := C27_add true m ⟨mt, x⟩ hw
    simp only at h1
    rw [h1] at h
    cases b with
    | false => cases h
    | true =>
      simp only at h
      obtain ⟨k1, k2⟩ := ih h2 h
      refine ⟨k1, ?_⟩
      rw [k2, h4]
      simp

theorem addTypes_spec (ts : List (Bytes × List Bytes)) : ∀ {m m' : MimeTab}, MimeWf m → addTypes m ts = .ok m' →
    MimeWf m' ∧ m'.entries = m.entries ++ ts.flatMap fun t => t.2.map fun x => ⟨t.1, x⟩ := by
  induction ts with
  | nil => intro m m' hw h; simp only [addTypes, Res.ok.injEq] at h; subst h; exact ⟨hw, by simp⟩
  | cons t r ih =>
    intro m m' hw h
    rw [addTypes] at h
    cases h1 : addExts m t.1 t.2 with
    | ub => rw [h1] at h; cases h
    | err => rw [h1] at h; cases h
    | ok m1 =>
      rw [h1] at h
      obtain ⟨a1, a2⟩ := addExts_spec _ _ hw h1
      obtain ⟨b1, b2⟩ := ih a1 h
      exact ⟨b1, by rw [b2, a2]; simp⟩

theorem styleOf_eq (s : Bytes) : styleOf s = styleNumber s := by
  unfold styleOf styleNumber logStyles
  by_cases h1 : s = b%"combined"
  · subst h1; decide
  by_cases h2 : s = b%"common"
  · subst h2; decide
  by_cases h3 : s = b%"condensed"
  · subst h3; decide
  by_cases h4 : s = b%"legacy"
  · subst h4; decide
  rw [if_neg h1, if_neg h2, if_neg h3, if_neg h4]
  simp [eq_comm (b := s), h1, h2, h3, h4]

theorem toLower_lower (c : UInt8) : toLower c = lower c := by
  have := forall_byte_of_all (p := fun c => decide (toLower c = lower c)) (by decide +kernel) c
  simpa using this

theorem facilityOf_eq (s : Bytes) : facilityOf s = knownFacility s := by
  have hT : documentedFacilities.filter (fun f => !decide (f.1 = b%"local0")) = facilities := by decide
  have hfind : ∀ (P : Bytes → Bool) (l : List (Bytes × Nat)), P b%"local0" = false →
      (l.find? fun f => P f.1) = ((l.filter (fun f => !decide (f.1 = b%"local0"))).find? fun f => P f.1) := by
    intro P l hP
    induction l with
    | nil => rfl
    | cons x r ih =>
      by_cases hx : x.1 = b%"local0"
      · rw [List.filter_cons_of_neg (by simp [hx]), List.find?_cons_of_neg (by rw [hx, hP]; simp), ih]
      · rw [List.filter_cons_of_pos (by simp [hx])]
        simp only [List.find?_cons, ih]
  have hcongr : ∀ (l : List (Bytes × Nat)) (P Q : Bytes × Nat → Bool), (∀ x ∈ l, P x = Q x) → l.find? P = l.find? Q := by
    intro l P Q h
    induction l with
    | nil => rfl
    | cons x r ih => simp only [List.find?_cons, h x (by simp), ih fun y hy => h y (by simp [hy])]
  have hlow : ∀ l : Bytes, l.map toLower = l.map lower := fun l => List.map_congr_left fun c _ => toLower_lower c
  have hnames : ∀ x ∈ facilities, x.1.map lower = x.1 ∧ x.1.take 4 ≠ b%"log_" := by decide +kernel
  have h0 : (b%"local0").map lower = b%"local0" ∧ (b%"local0").take 4 ≠ b%"log_" := by decide +kernel
  have hiff : ∀ n : Bytes, n.map lower = n → n.take 4 ≠ b%"log_" →
      caseEq (if decide ((s.take 4).map toLower = b%"log_") then s.drop 4 else s) n = namesFacility s n := by
    intro n hn1 hn2
    unfold caseEq namesFacility
    rw [hlow, hlow, hlow, hn1]
    by_cases hp : (s.take 4).map lower = b%"log_"
    · rw [if_pos (by rw [decide_eq_true_eq]; exact hp)]
      have hs : s.map lower = b%"log_" ++ (s.drop 4).map lower := by
        rw [← hp, ← List.map_append, List.take_append_drop]
      rw [decide_eq_decide, hs]
      constructor
      · intro h; right; rw [h]
      · rintro (h | h)
        · exact absurd (by rw [← h]; rfl) hn2
        · exact List.append_cancel_left h
    · rw [if_neg (by rw [decide_eq_true_eq]; exact hp), decide_eq_decide]
      constructor
      · intro h; exact .inl h
      · rintro (h | h)
        · exact h
        · exact absurd (by rw [List.map_take, h]; rfl) hp
  unfold facilityOf knownFacility documentedFacility
  simp only
  by_cases hz : namesFacility s b%"local0" = true
  · rw [if_pos hz, hcongr facilities _ (fun _ => false)]
    · simp
    · intro x hx
      rw [hiff x.1 (hnames x hx).1 (hnames x hx).2]
      have hne : ∀ x ∈ facilities, x.1 ≠ b%"local0" ∧ x.1 ≠ b%"log_local0" ∧ b%"log_" ++ x.1 ≠ b%"local0" ∧ b%"log_" ++ x.1 ≠ b%"log_local0" := by decide +kernel
      obtain ⟨n1, n2, n3, n4⟩ := hne x hx
      unfold namesFacility at hz ⊢
      simp only [decide_eq_true_eq, decide_eq_false_iff_not] at hz ⊢
      intro h
      rcases hz with h' | h' <;> rcases h with h | h
      · exact n1 (h.symm.trans h')
      · exact n3 (h.symm.trans h')
      · exact n2 (h.symm.trans h')
      · exact n4 (h.symm.trans h')
  · rw [if_neg hz, hfind (fun n => namesFacility s n) _ (by simpa using hz), hT]
    congr 1
    exact hcongr _ _ _ fun x hx => hiff x.1 (hnames x hx).1 (hnames x hx).2

theorem glob_plain {env : PEnv} {c0 c c' : CConf} {d : Directive} {pre : List Directive} (hg : GlobalMeans env c0 pre c) (hw : MimeWf c.mime)
    (h : confAction env c d = .ok c') (h0 : c'.errors = 0) (hs : serverOf d = none) : GlobalMeans env c0 (pre ++ [d]) c' ∧ MimeWf c'.mime := by
  obtain ⟨g1, g2, g3, g4, g5, g6, g7, g8, g9⟩ := hg
  cases d with
  | server n b => simp [serverOf] at hs
  | chroot s =>
    simp only [confAction, Res.ok.injEq] at h
    subst h
    simp only at h0
    have hfl : fld 4096 s = s := fld_of_le (by omega)
    exact ⟨by constructor <;> simp [lastOf_snoc, chrootOf, userOf, preforkOf, protocolsOf, syslogOf, logAccessOf, logStyleOf, typesOf, facilityDirOf, g1, g2, g3, g4, g5, g6, g7, g8, g9, hfl], hw⟩
  | user s =>
    simp only [confAction, Res.ok.injEq] at h
    subst h
    simp only at h0
    have hfl : fld 256 s = s := fld_of_le (by omega)
    exact ⟨by constructor <;> simp [lastOf_snoc, chrootOf, userOf, preforkOf, protocolsOf, syslogOf, logAccessOf, logStyleOf, typesOf, facilityDirOf, g1, g2, g3, g4, g5, g6, g7, g8, g9, hfl], hw⟩
  | protocols s =>
    simp only [confAction] at h
    cases hp : env.protos s with
    | none => rw [hp] at h; simp only [Res.ok.injEq] at h; subst h; simp at h0
    | some v =>
      rw [hp] at h
      simp only [Res.ok.injEq] at h
      subst h
      exact ⟨by constructor <;> simp [lastOf_snoc, chrootOf, userOf, preforkOf, protocolsOf, syslogOf, logAccessOf, logStyleOf, typesOf, facilityDirOf, g1, g2, g3, g4, g5, g6, g7, g8, g9, hp], hw⟩
  | logStyle s =>
    simp only [confAction] at h
    cases hp : styleOf s with
    | none => rw [hp] at h; simp only [Res.ok.injEq] at h; subst h; simp at h0
    | some v =>
      rw [hp] at h
      simp only [Res.ok.injEq] at h
      subst h
      rw [styleOf_eq] at hp
      exact ⟨by constructor <;> simp [lastOf_snoc, chrootOf, userOf, preforkOf, protocolsOf, syslogOf, logAccessOf, logStyleOf, typesOf, facilityDirOf, g1, g2, g3, g4, g5, g6, g7, g8, g9, hp], hw⟩
  | types ts =>
    simp only [confAction] at h
    cases hp : addTypes c.mime ts with
    | ub => rw [hp] at h; cases h
    | err => rw [hp] at h; cases h
    | ok m =>
      rw [hp] at h
      simp only [Res.ok.injEq] at h
      subst h
      obtain ⟨k1, k2⟩ := addTypes_spec ts hw hp
      exact ⟨by constructor <;> simp [lastOf_snoc, chrootOf, userOf, preforkOf, protocolsOf, syslogOf, logAccessOf, logStyleOf, typesOf, facilityDirOf, g1, g2, g3, g4, g5, g6, g7, g8, g9, k2], k1⟩
  | syslogFacility s =>
    simp only [confAction, Res.ok.injEq] at h
    subst h
    rw [facilityOf_eq]
    exact ⟨by constructor <;> simp [lastOf_snoc, chrootOf, userOf, preforkOf, protocolsOf, syslogOf, logAccessOf, logStyleOf, typesOf, facilityDirOf, g1, g2, g3, g4, g5, g6, g7, g8, g9] <;> cases knownFacility s <;> simp, hw⟩
  | ipv6 _ | port _ | prefork _ | logAccess _ | syslogOff | syslog =>
    simp only [confAction, Res.ok.injEq] at h
    subst h
    exact ⟨by constructor <;> simp [lastOf_snoc, chrootOf, userOf, preforkOf, protocolsOf, syslogOf, logAccessOf, logStyleOf, typesOf, facilityDirOf, g1, g2, g3, g4, g5, g6, g7, g8, g9], hw⟩

theorem glob_server {env : PEnv} {c0 c c' : CConf} {n : Bytes} {b : List SrvOpt} {pre : List Directive} (hg : GlobalMeans env c0 pre c)
    (h : confAction env c (.server n b) = .ok c') : GlobalMeans env c0 (pre ++ [.server n b]) c' ∧ c'.mime = c.mime := by
  obtain ⟨g1, g2, g3, g4, g5, g6, g7, g8, g9⟩ := hg
  simp only [confAction] at h
  cases h1 : srvActions env ⟨c.fcgi, c.addrs, newHost n, c.errors + tooLong 256 n⟩ b with
  | ub => rw [h1] at h; cases h
  | err => rw [h1] at h; cases h
  | ok s =>
    rw [h1] at h
    simp only at h
    cases h2 : closeHost env c.defaultHost c.defaultPort s with
    | ub => rw [h2] at h; cases h
    | err => rw [h2] at h; cases h
    | ok s' =>
      rw [h2] at h
      simp only [Res.ok.injEq] at h
      subst h
      exact ⟨by constructor <;> simp [lastOf_snoc, chrootOf, userOf, preforkOf, protocolsOf, syslogOf, logAccessOf, logStyleOf, typesOf, facilityDirOf, g1, g2, g3, g4, g5, g6, g7, g8, g9], rfl⟩

theorem genHost_mono {env : PEnv} {fs fs' : List FcgiEp} (hp : fs <+: fs') {x : Bytes × List SrvOpt} (hd : ∀ b ∈ blocks x.2, Declared fs b.2) :
    genHost env fs' x = genHost env fs x := by
  unfold genHost
  rw [blocks_mono hp hd]
  simp [hostValue]

theorem confAction_val {env : PEnv} (hr : Resolves env) {c0 c c' : CConf} {d : Directive} {pre : List Directive} (ht : Tracks pre c)
    (hi : FileInv env c0 pre c) (h : confAction env c d = .ok c') (h0 : c'.errors = 0) : FileInv env c0 (pre ++ [d]) c' := by
  obtain ⟨i1, i2, i3, i4, i5, i6⟩ := hi
  cases hs : serverOf d with
  | none =>
    obtain ⟨_, a2, a3, a4, _⟩ := confAction_plain ht hs h
    obtain ⟨b1, b2⟩ := glob_plain i5 i6 h h0 hs
    have hfm : (pre ++ [d]).filterMap serverOf = pre.filterMap serverOf := by simp [hs]
    have hsw : serversWithPrefix [] (pre ++ [d]) = serversWithPrefix [] pre := by rw [swp_append, swp_plain hs]; simp
    exact ⟨by rw [a4]; exact i1, by rw [hfm, a4]; exact i2, by rw [hfm, a3, a4]; exact i3, by rw [hsw, a3]; exact i4, b1, b2⟩
  | some x =>
    obtain ⟨name, body⟩ := x
    have hd' : d = .server name body := by cases d <;> simp_all [serverOf]
    subst hd'
    obtain ⟨b1, b2⟩ := glob_server i5 h
    obtain ⟨_, _, _, a4⟩ := confAction_server hr ht h
    obtain ⟨s, hh, c1, c2, c3, c4, c5, c6⟩ := a4 h0 i1
    have hfm : (pre ++ [Directive.server name body]).filterMap serverOf = pre.filterMap serverOf ++ [(name, body)] := by simp [serverOf]
    have hsw : serversWithPrefix [] (pre ++ [.server name body]) = serversWithPrefix [] pre ++ [(pre, name, body)] := by
      rw [swp_append]; simp [serversWithPrefix]
    have decl : ∀ x ∈ pre.filterMap serverOf ++ [(name, body)], ∀ b ∈ blocks x.2, Declared c'.fcgi b.2 := by
      intro x hx
      simp only [List.mem_append, List.mem_singleton] at hx
      rcases hx with hx | rfl
      · intro b hb; exact (i2 x hx b hb).mono c3
      · intro b hb; rw [← c2]; exact c1.decl b hb
    refine ⟨by rw [← c2]; exact c1.nodup, by rw [hfm]; exact decl, ?_, ?_, b1, by rw [b2]; exact i6⟩
    · rw [hfm, c4]
      simp only [List.map_cons, List.reverse_append, List.reverse_cons, List.reverse_nil, List.nil_append, List.singleton_append]
      rw [i3, c5]
      have e1 : noAddrs s.host = genHost env c'.fcgi (name, body) := by
        obtain ⟨j1, j2, j3, j4, j5, j6, j7, j8, j9⟩ := c1
        rw [c2] at j3
        simp only [noAddrs, genHost, hostValue]
        cases hst : s.host
        rw [hst] at j3 j4 j5 j6 j7 j8 j9
        simp only at j3 j4 j5 j6 j7 j8 j9
        subst j3 j4 j5 j6 j7 j8 j9
        rfl
      rw [e1]
      congr 1
      refine List.map_congr_left fun x hx => ?_
      rw [genHost_mono c3 (fun b hb => i2 x (List.mem_reverse.mp hx) b hb)]
    · rw [hsw, c4]
      simp only [List.map_cons, List.reverse_append, List.reverse_cons, List.reverse_nil, List.nil_append, List.singleton_append]
      rw [i4, c6]

theorem confActions_val {env : PEnv} (hr : Resolves env) {c0 : CConf} (ds : List Directive) : ∀ {c c' : CConf} {pre : List Directive}, Tracks pre c →
    FileInv env c0 pre c → confActions env c ds = .ok c' → c'.errors = 0 → FileInv env c0 (pre ++ ds) c' := by
  induction ds with
  | nil =>
    intro c c' pre _ hi h _
    simp only [confActions, Res.ok.injEq] at h
    subst h
    simpa using hi
  | cons d r ih =>
    intro c c' pre ht hi h h0
    rw [confActions] at h
    cases h1 : confAction env c d with
    | ub => rw [h1] at h; cases h
    | err => rw [h1] at h; cases h
    | ok c1 =>
      rw [h1] at h
      simp only at h
      have ht1 : Tracks (pre ++ [d]) c1 := by
        cases hs : serverOf d with
        | none => exact (confAction_plain ht hs h1).1
        | some x =>
          obtain ⟨name, body⟩ := x
          have hd' : d = .server name body := by cases d <;> simp_all [serverOf]
          subst hd'
          exact (confAction_server hr ht h1).1
      obtain ⟨_, b2, _⟩ := confActions_err hr r ht1 h
      have := ih ht1 (confAction_val hr ht hi h1 (b2 h0).1) h h0
      simpa using this

end Gmid

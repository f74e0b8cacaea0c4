import Verif.Spec.UpTls
import Verif.Props.TlsName
import Verif.Props.Protocols
import Verif.Props.Upstream
import Verif.Props.DeployUp

/-!
# C125: a request is relayed to the upstream server it is meant for only
-/

set_option autoImplicit false

namespace Gmid.Props

open Gmid.Spec

/-! ## The name -/

theorem stripDot_spec (s : Bytes) : (stripDot s = s ∧ ∀ t, s ≠ t ++ b%".") ∨ s = stripDot s ++ b%"." := by
  unfold stripDot
  by_cases h : s.getLast? = some c%'.'
  · rw [if_pos h]
    right
    have hne : s ≠ [] := by intro e; rw [e] at h; cases h
    have := List.dropLast_concat_getLast hne
    rw [List.getLast?_eq_some_getLast hne] at h
    simp only [Option.some.injEq] at h
    rw [h] at this
    exact this.symm
  · rw [if_neg h]
    left
    refine ⟨rfl, fun t e => h ?_⟩
    rw [e]; simp

/-- the name is determined by the block -/
theorem upstreamName_unique (opts : List ProxyOpt) (a b : Bytes) (ha : UpstreamName opts a) (hb : UpstreamName opts b) : a = b := by
  obtain ⟨s, h1, h2⟩ := ha
  obtain ⟨t, k1, k2⟩ := hb
  have hst : s = t := by
    rcases h2 with ⟨h2, h3⟩ | ⟨h2, port, h3⟩ <;> rcases k2 with ⟨k2, k3⟩ | ⟨k2, port', k3⟩
    · rw [h2] at k2; simpa using k2
    · rw [h2] at k2; rcases k2 with k2 | k2 <;> simp_all
    · rw [k2] at h2; rcases h2 with h2 | h2 <;> simp_all
    · rw [h3] at k3; simp at k3; exact k3.1
  subst hst
  rcases h1 with ⟨rfl, h1⟩ | h1 <;> rcases k1 with ⟨rfl, k1⟩ | k1
  · rfl
  · exact absurd k1 (h1 b)
  · exact absurd h1 (k1 a)
  · rw [h1] at k1; exact (List.append_inj_left' k1 rfl)

theorem setup_cases (inet : Bytes → Option Bytes) (loads : Bytes × Bytes → Bool) (p : CProxy) (pair : Option (Bytes × Bytes)) (t : TlsClient)
    (h : proxySetupTls inet loads p pair = some t) :
    t.conf = upTlsConf p pair ∧ t.servername = stripDot (if p.sni = [] then p.host else p.sni) ∧
      t.sni = if (inet t.servername).isSome then none else some t.servername := by
  unfold proxySetupTls tlsConnect at h
  dsimp only at h
  generalize hn : (if p.sni = [] then p.host else p.sni) = hn' at h ⊢
  split at h
  · cases h
  · split at h
    · rename_i hi; cases h; exact ⟨rfl, rfl, by simp [hi]⟩
    · rename_i hi
      unfold sslHostName at h
      split at h
      · cases h
      · rename_i s hs
        split at hs
        · cases hs
        · cases hs; cases h; exact ⟨rfl, rfl, by simp [hi]⟩

theorem upTlsConf_eq (p : CProxy) (pair : Option (Bytes × Bytes)) :
    upTlsConf p pair = { protocols := UInt32.ofNat p.protocols, verifyCert := false, verifyName := !p.noverifyname, keypair := pair } := by
  unfold upTlsConf
  cases hn : p.noverifyname <;> cases pair <;> rfl

/-! ## The relay of a block -/

section
variable {penv : PEnv} {ds : List Directive} {c0 c : CConf}

theorem relayAt_value (hr : Resolves penv) (hf : Fresh c0) (h : parseConf penv c0 ds = .ok (c, true)) {k j : Nat} {y : List ProxyMatch × List ProxyOpt}
    (hy : BlockAt ds k j y) {p : CProxy} (hp : RelayAt c k j p) : p = proxyValue penv y := by
  obtain ⟨x, hx, hyj⟩ := hy
  obtain ⟨v, hv, hpj⟩ := hp
  have hi := parse_inv hr hf h
  have : (c.hosts[k]?).map noAddrs = ((ds.filterMap serverOf).reverse[k]?).map (genHost penv c.fcgi) := by
    rw [← List.getElem?_map, hi.hosts, List.getElem?_map]
  rw [hv, hx] at this
  simp only [Option.map_some, Option.some.injEq] at this
  have hpr : v.proxies = (x.2.filterMap proxyOf).map (proxyValue penv) := congrArg CHost.proxies this
  rw [hpr, List.getElem?_map, hyj] at hpj
  simpa using hpj.symm

theorem block_ok (hr : Resolves penv) (hf : Fresh c0) (h : parseConf penv c0 ds = .ok (c, true)) {k j : Nat} {y : List ProxyMatch × List ProxyOpt}
    (hy : BlockAt ds k j y) : ProxyOk penv y.1 y.2 := by
  obtain ⟨x, hx, hyj⟩ := hy
  have hok := ((C69_accepted_partial penv hr c0 hf ds c true h).1 rfl).1
  have hxm : x ∈ ds.filterMap serverOf := List.mem_reverse.mp (List.mem_of_getElem? hx)
  obtain ⟨d, hd, hdx⟩ := List.mem_filterMap.mp hxm
  have hd' : d = .server x.1 x.2 := by
    cases d <;> simp [serverOf] at hdx
    subst hdx; rfl
  have hb := hok d hd
  rw [hd'] at hb
  obtain ⟨o, ho, hoy⟩ := List.mem_filterMap.mp (List.mem_of_getElem? hyj)
  have ho' : o = .proxy y.1 y.2 := by
    cases o <;> simp [proxyOf] at hoy
    subst hoy; rfl
  have hpo := hb.2.1 o ho
  rw [ho'] at hpo
  exact hpo

end

theorem proxyOk_relay {penv : PEnv} {y : List ProxyMatch × List ProxyOpt} (h : ProxyOk penv y.1 y.2) : ∃ s port, lastOf pRelayOf y.2 = some (s, port) ∧ s ≠ [] := by
  obtain ⟨_, _, ⟨s, pa, h3, h4⟩, _⟩ := h
  exact ⟨s, pa, h3, h4⟩

theorem value_name {penv : PEnv} {y : List ProxyMatch × List ProxyOpt} (h : ProxyOk penv y.1 y.2) :
    UpstreamName y.2 (stripDot (if (proxyValue penv y).sni = [] then (proxyValue penv y).host else (proxyValue penv y).sni)) := by
  obtain ⟨s, port, h3, h4⟩ := proxyOk_relay h
  refine ⟨_, stripDot_spec _, ?_⟩
  cases hs : lastOf pSniOf y.2 with
  | none => exact .inr ⟨.inl rfl, port, by simp [proxyValue, hs, hostText, h3]⟩
  | some n =>
    by_cases hn : n = []
    · exact .inr ⟨.inr (by rw [hn]), port, by simp [proxyValue, hs, hostText, h3, hn]⟩
    · exact .inl ⟨by simp [proxyValue, hs, hn], by simp [proxyValue, hs, hn]⟩

theorem value_verify {penv : PEnv} (y : List ProxyMatch × List ProxyOpt) : (proxyValue penv y).noverifyname = true ↔ lastOf pVerifyOf y.2 = some false := by
  simp only [proxyValue]
  cases lastOf pVerifyOf y.2 with
  | none => simp
  | some b => cases b <;> simp

theorem value_notls {penv : PEnv} (y : List ProxyMatch × List ProxyOpt) : (proxyValue penv y).notls = true ↔ lastOf pUseTlsOf y.2 = some false := by
  simp only [proxyValue]
  cases lastOf pUseTlsOf y.2 with
  | none => simp
  | some b => cases b <;> simp

theorem value_letIn {penv : PEnv} (hp : penv.protos = libtlsProtos) {y : List ProxyMatch × List ProxyOpt} (h : ProxyOk penv y.1 y.2) (v : TlsVer)
    (hv : offers (UInt32.ofNat (proxyValue penv y).protocols) v = true) : LetIn y.2 v := by
  refine ⟨by cases v <;> simp [offers, sslNo] at hv ⊢, ?_⟩
  intro s hs
  obtain ⟨o, ho, hos⟩ := lastOf_mem hs
  have ho' : o = .protocols s := by cases o <;> simp [pProtocolsOf] at hos; rw [hos]
  have hne : penv.protos s ≠ none := by
    have := h.2.1 o ho
    rw [ho'] at this; exact this
  rw [hp] at hne
  have hfs := fields_exist s
  obtain ⟨ws, hw⟩ := words_exist (strsepAll s) fun f hf => Classical.byContradiction fun hx => hne (by
    rw [libtlsProtos, (C111_refused s _ hfs).mpr ⟨f, hf, hx⟩]; rfl)
  refine ⟨_, ws, hfs, hw, fun hN => ?_⟩
  obtain ⟨p, hpp, hiff⟩ := C111_meaning_partial s _ hfs ws hw hN
  refine (hiff v).1 ?_
  have : UInt32.ofNat (proxyValue penv y).protocols = p := by
    simp [proxyValue, hs, hp, libtlsProtos, hpp]
  rw [← this]; exact hv

/-! ## The handshake -/

theorem handshake_complete (inet : Bytes → Option Bytes) (t : TlsClient) (r : SslRes) (h : tlsHandshakeClient inet t r = .complete) :
    ∃ v cert tr, r = .done v cert tr ∧ offers t.conf.protocols v = true ∧
      (t.conf.verifyName = false ∨ ∃ c, cert = some c ∧ Covers (inet t.servername) c t.servername) := by
  unfold tlsHandshakeClient at h
  cases r with
  | wantIn => cases h
  | wantOut => cases h
  | failed => cases h
  | done v cert tr =>
    refine ⟨v, cert, tr, rfl, ?_⟩
    simp only [sslConnect] at h
    by_cases h1 : sslNo t.conf.protocols v = true
    · rw [if_pos h1] at h; cases h
    · rw [if_neg h1] at h
      refine ⟨by simpa [offers] using h1, ?_⟩
      by_cases h2 : (t.conf.verifyCert && !tr) = true
      · rw [if_pos h2] at h; cases h
      · rw [if_neg h2] at h
        dsimp only at h
        cases hv : t.conf.verifyName with
        | false => exact .inl rfl
        | true =>
          rw [if_pos hv] at h
          right
          cases cert with
          | none => cases h
          | some c =>
            refine ⟨c, rfl, ?_⟩
            dsimp only at h
            split at h
            · cases h
            · cases h
            · rename_i hc
              exact (C97_accepted inet c t.servername true hc).1 rfl

section
variable {env : Env} {inet : Bytes → Option Bytes} {i : Iri} {iribuf : Bytes} {t : TlsClient}

theorem life_up_stays (evs : List UpLifeEv) : ∀ (u : Up) (s : UpLife), upLifeRun env inet i iribuf t evs (.up u) = .ok s → ∃ u', s = .up u' := by
  induction evs with
  | nil => intro u s h; cases h; exact ⟨u, rfl⟩
  | cons ev r ih =>
    intro u s h
    rw [upLifeRun] at h
    cases ev with
    | later e =>
      simp only [upLifeStep] at h
      cases he : upStep env e u with
      | ok u1 => rw [he] at h; exact ih u1 s h
      | err => rw [he] at h; cases h
      | ub => rw [he] at h; cases h
    | timeout => exact ih u s h
    | ready r' => exact ih u s h
    | client n => exact ih u s h

theorem life_lost_stays (evs : List UpLifeEv) : ∀ (f : PClient) (s : UpLife), upLifeRun env inet i iribuf t evs (.lost f) = .ok s → ∃ f', s = .lost f' := by
  induction evs with
  | nil => intro u s h; cases h; exact ⟨u, rfl⟩
  | cons ev r ih =>
    intro f s h
    rw [upLifeRun] at h
    cases ev with
    | client n =>
      simp only [upLifeStep, UpLife.flush] at h
      cases he : proxyStep env (.flush n) f with
      | ok f1 => rw [he] at h; exact ih f1 s h
      | err => rw [he] at h; cases h
      | ub => rw [he] at h; cases h
    | timeout => exact ih f s h
    | ready r' => exact ih f s h
    | later n => exact ih f s h

/-- nothing is carried before a handshake is complete -/
theorem life_shaken (evs : List UpLifeEv) : ∀ (rd wr : Bool) (f : PClient) (s : UpLife),
    upLifeRun env inet i iribuf t evs (.shaking rd wr f) = .ok s →
    s.carried = [] ∨ ∃ r, UpLifeEv.ready r ∈ evs ∧ tlsHandshakeClient inet t r = .complete := by
  induction evs with
  | nil => intro rd wr f s h; cases h; exact .inl rfl
  | cons ev r ih =>
    intro rd wr f s h
    have keep : ∀ rd wr f', upLifeRun env inet i iribuf t r (.shaking rd wr f') = .ok s →
        s.carried = [] ∨ ∃ r', UpLifeEv.ready r' ∈ ev :: r ∧ tlsHandshakeClient inet t r' = .complete := by
      intro rd wr f' h'
      rcases ih rd wr f' s h' with h1 | ⟨r', h1, h2⟩
      · exact .inl h1
      · exact .inr ⟨r', List.mem_cons_of_mem _ h1, h2⟩
    have lost : ∀ f', upLifeRun env inet i iribuf t r (.lost f') = .ok s → s.carried = [] := by
      intro f' h'
      obtain ⟨f'', rfl⟩ := life_lost_stays r f' s h'
      rfl
    rw [upLifeRun] at h
    cases ev with
    | client n =>
      simp only [upLifeStep, UpLife.flush] at h
      cases he : proxyStep env (.flush n) f with
      | ok f1 => rw [he] at h; exact keep rd wr f1 h
      | err => rw [he] at h; cases h
      | ub => rw [he] at h; cases h
    | timeout =>
      simp only [upLifeStep] at h
      by_cases hc : f.c.closed = true
      · rw [if_pos hc] at h; exact keep rd wr f h
      · rw [if_neg hc] at h; exact .inl (lost _ h)
    | later e => exact keep rd wr f h
    | ready q =>
      simp only [upLifeStep] at h
      by_cases hc : f.c.closed = true
      · rw [if_pos hc] at h; exact keep rd wr f h
      · rw [if_neg hc] at h
        unfold proxyHandshake at h
        cases hq : tlsHandshakeClient inet t q with
        | wantIn => rw [hq] at h; exact keep _ _ _ h
        | wantOut => rw [hq] at h; exact keep _ _ _ h
        | failed => rw [hq] at h; exact .inl (lost _ h)
        | complete => exact .inr ⟨q, by simp, hq⟩

end

/-! ## C125 -/

section
variable {penv : PEnv} {ds : List Directive} {c0 c : CConf} {env : Env} {inet : Bytes → Option Bytes} {i : Iri} {iribuf : Bytes}
  {loads : Bytes × Bytes → Bool}

/-- **C125.** Whatever happens on the connection to the upstream server of a proxy block of an accepted file, no byte of the request is sent on it, unless the block says
`use-tls off`, before a TLS handshake came to its end with a version the block lets in and with a certificate for the name of the upstream server, or with any
if the block says `verifyname off`. -/
theorem C125_sent_to (hr : Resolves penv) (hp : penv.protos = libtlsProtos) (hf : Fresh c0) (h : parseConf penv c0 ds = .ok (c, true)) (k j : Nat)
    (y : List ProxyMatch × List ProxyOpt) (hy : BlockAt ds k j y) (p : CProxy) (hpr : RelayAt c k j p) (pair : Option (Bytes × Bytes)) (pre : Bytes)
    (f : PClient) (evs : List UpLifeEv) (s : UpLife) (hs : relayLife env inet i iribuf loads p pair pre f evs = some (.ok s)) (hc : s.carried ≠ []) :
    lastOf pUseTlsOf y.2 = some false ∨
    ∃ v cert trusted, UpLifeEv.ready (.done v cert trusted) ∈ evs ∧ LetIn y.2 v ∧ CertFor inet y.2 cert := by
  obtain rfl := relayAt_value hr hf h hy hpr
  have hok := block_ok hr hf h hy
  by_cases hn : (proxyValue penv y).notls = true
  · exact .inl ((value_notls y).1 hn)
  · right
    unfold relayLife at hs
    rw [if_neg hn] at hs
    split at hs
    · cases hs
    · rename_i t ht
      simp only [Option.some.injEq] at hs
      obtain ⟨e1, e2, -⟩ := setup_cases _ _ _ _ _ ht
      rcases life_shaken evs _ _ _ s hs with h1 | ⟨r, h1, h2⟩
      · exact absurd h1 hc
      · obtain ⟨v, cert, tr, rfl, h3, h4⟩ := handshake_complete inet t r h2
        rw [e1, upTlsConf_eq] at h3 h4
        refine ⟨v, cert, tr, h1, value_letIn hp hok v h3, ?_⟩
        rcases h4 with h4 | ⟨c', h4, h5⟩
        · exact .inl ((value_verify y).1 (by simpa using h4))
        · rw [e2] at h5
          exact .inr ⟨c', _, h4, value_name hok, h5⟩

/-- **C125.** The server is asked, in the handshake, for the name that will be checked, unless that is an address; and is shown the certificate of the block, if
it has one, and no other. -/
theorem C125_asked (hr : Resolves penv) (hf : Fresh c0) (h : parseConf penv c0 ds = .ok (c, true)) (k j : Nat)
    (y : List ProxyMatch × List ProxyOpt) (hy : BlockAt ds k j y) (p : CProxy) (hpr : RelayAt c k j p) (pair : Option (Bytes × Bytes)) (t : TlsClient)
    (ht : proxySetupTls inet loads p pair = some t) :
    UpstreamName y.2 t.servername ∧ t.sni = (if inet t.servername = none then some t.servername else none) ∧ t.conf.keypair = pair := by
  obtain rfl := relayAt_value hr hf h hy hpr
  obtain ⟨e1, e2, e3⟩ := setup_cases _ _ _ _ _ ht
  refine ⟨by rw [e2]; exact value_name (block_ok hr hf h hy), ?_, by rw [e1, upTlsConf_eq]⟩
  rw [e3]
  cases inet t.servername <;> simp

/-- **C125.** A relay with TLS can be set up as long as its key pair can be loaded and the name of its server is not empty. -/
theorem C125_set_up (hr : Resolves penv) (hf : Fresh c0) (h : parseConf penv c0 ds = .ok (c, true)) (k j : Nat)
    (y : List ProxyMatch × List ProxyOpt) (hy : BlockAt ds k j y) (p : CProxy) (hpr : RelayAt c k j p) (pair : Option (Bytes × Bytes))
    (hl : ∀ q, pair = some q → loads q = true) (hne : ¬ UpstreamName y.2 []) : ∃ t, proxySetupTls inet loads p pair = some t := by
  obtain rfl := relayAt_value hr hf h hy hpr
  have hok := block_ok hr hf h hy
  have hname := value_name hok
  unfold proxySetupTls tlsConnect
  dsimp only
  generalize hn : (if (proxyValue penv y).sni = [] then (proxyValue penv y).host else (proxyValue penv y).sni) = hn' at hname ⊢
  rw [if_neg (by
    rw [upTlsConf_eq]
    cases pair with
    | none => simp
    | some q => simp [hl q rfl])]
  by_cases hi : (inet (stripDot hn')).isSome = true
  · rw [if_pos hi]; exact ⟨_, rfl⟩
  · rw [if_neg hi]
    have h0 : (stripDot hn').length ≠ 0 := by
      intro e
      rw [List.length_eq_zero_iff.mp e] at hname
      exact hne hname
    have hlen : hn'.length ≤ 255 := by
      obtain ⟨s, pa, h3, h4⟩ := proxyOk_relay hok
      rw [← hn]
      have hs : ∀ n, lastOf pSniOf y.2 = some n → n.length ≤ 255 := by
        intro n hs
        obtain ⟨o, ho, hos⟩ := lastOf_mem hs
        have ho' : o = .sni n := by cases o <;> simp [pSniOf] at hos; rw [hos]
        have := hok.2.1 o ho
        rw [ho'] at this
        have : n.length ≤ 254 := this
        omega
      have hrl : s.length ≤ 255 := by
        obtain ⟨o, ho, hos⟩ := lastOf_mem h3
        have ho' : o = .relayTo s pa := by cases o <;> simp [pRelayOf] at hos; rw [hos.1, hos.2]
        have := hok.2.1 o ho
        rw [ho'] at this
        exact this.1
      split
      · simp [proxyValue, hostText, h3, hrl]
      · simp only [proxyValue]
        cases hs' : lastOf pSniOf y.2 with
        | none => simp
        | some n => simpa using hs n hs'
    have hst : (stripDot hn').length ≤ hn'.length := by
      unfold stripDot
      split
      · simp
      · exact Nat.le_refl _
    unfold sslHostName
    rw [if_neg (by omega)]
    exact ⟨_, rfl⟩

/-- **C125.** And it is sent: when the handshake comes to its end, with a version that is let in, a certificate as it should be for the name, or none being looked at, the
request line is on its way (C106). -/
theorem C125_sent_when (hr : Resolves penv) (hf : Fresh c0) (h : parseConf penv c0 ds = .ok (c, true)) (k j : Nat)
    (y : List ProxyMatch × List ProxyOpt) (hy : BlockAt ds k j y) (p : CProxy) (hpr : RelayAt c k j p) (pair : Option (Bytes × Bytes)) (t : TlsClient)
    (ht : proxySetupTls inet loads p pair = some t) (rd wr : Bool) (f : PClient) (ho : f.c.closed = false)
    (v : TlsVer) (cert : Option CertNames) (trusted : Bool) (hv : offers (UInt32.ofNat p.protocols) v = true)
    (hcert : lastOf pVerifyOf y.2 = some false ∨ ∃ c' name, cert = some c' ∧ ProperCert c' ∧ UpstreamName y.2 name ∧ Covers (inet name) c' name)
    (hb : iribuf.length = 1027) (h1 : (0 : UInt8) ∉ i.schema) (h2 : (0 : UInt8) ∉ i.host) (h3 : (0 : UInt8) ∉ i.path) (h4 : (0 : UInt8) ∉ i.query) :
    ∃ u, upLifeStep env inet i iribuf t (.ready (.done v cert trusted)) (.shaking rd wr f) = .ok (.up u) ∧
      OnItsWay ((iriText i).take 1026 ++ b%"\r\n") u := by
  obtain ⟨n1, n2, -⟩ := C125_asked hr hf h k j y hy p hpr pair t ht
  obtain ⟨e1, e2, -⟩ := setup_cases _ _ _ _ _ ht
  have hh : tlsHandshakeClient inet t (.done v cert trusted) = .complete := by
    unfold tlsHandshakeClient sslConnect
    rw [e1, upTlsConf_eq]
    have hno : sslNo (UInt32.ofNat p.protocols) v = false := by simpa [offers] using hv
    simp only [hno, Bool.false_eq_true, if_false, Bool.false_and, Bool.not_eq_true']
    obtain rfl := relayAt_value hr hf h hy hpr
    rcases hcert with hc | ⟨c', name, rfl, hpc, hname, hcov⟩
    · rw [if_neg (by rw [(value_verify y).2 hc]; decide)]
    · by_cases hn : (proxyValue penv y).noverifyname = false
      · rw [if_pos hn]
        obtain rfl := upstreamName_unique _ _ _ hname n1
        obtain ⟨b, hb'⟩ := C97_judged inet c' t.servername hpc
        have := (C97_accepted inet c' t.servername b hb').2 hcov
        subst this
        simp [hb']
      · rw [if_neg hn]
  obtain ⟨u, hu, hw⟩ := C106_request_on_its_way env [] iribuf i f [] hb h1 h2 h3 h4
  refine ⟨u, ?_, by simpa using hw u rfl⟩
  simp only [upLifeStep]
  rw [if_neg (by rw [ho]; decide)]
  unfold proxyHandshake upGo
  rw [hh]
  dsimp only
  rw [hu]

/-- **C125.** Who issued the certificate is not looked at. -/
theorem C125_issuer (p : CProxy) (pair : Option (Bytes × Bytes)) (t : TlsClient) (ht : proxySetupTls inet loads p pair = some t)
    (v : TlsVer) (cert : Option CertNames) : tlsHandshakeClient inet t (.done v cert false) = tlsHandshakeClient inet t (.done v cert true) := by
  obtain ⟨e1, -, -⟩ := setup_cases _ _ _ _ _ ht
  unfold tlsHandshakeClient sslConnect
  rw [e1, upTlsConf_eq]
  by_cases h : sslNo (UInt32.ofNat p.protocols) v = true <;> simp [h]

end

/-! ## What the client is told -/

theorem pover_43 (env : Env) (f : PClient) (h : Relaying f.c) (mt : Bytes) (hl : mt.length ≤ 1000) (hne : mt ≠ b%"text/gemini") :
    POver (b%"43 " ++ mt ++ b%"\r\n") { f with phase := .over, c := startReply env f.c 43 mt } := by
  have e : startReply env f.c 43 mt = queueHeader env f.c 43 mt (intDec 43 ++ c%' ' :: mt) :=
    startReply_short env f.c 43 mt hne (by have : (intDec 43).length = 2 := by decide
                                           omega)
  have r := queueHeader_replied env f.c 43 mt (intDec 43 ++ c%' ' :: mt)
  rw [← e] at r
  refine ⟨rfl, ?_, ?_, ?_⟩
  · show (startReply env f.c 43 mt).type = .done
    rw [r.type]; rfl
  · show (startReply env f.c 43 mt).code ≠ 0
    rw [r.rcode]; decide
  · show (startReply env f.c 43 mt).sent ++ (startReply env f.c 43 mt).out = _
    rw [r.sent, h.sent, e]
    have : intDec 43 = b%"43" := by decide
    simp [queueHeader, h.out, this]

theorem relaying_flush (env : Env) (n : Nat) (f : PClient) (h : Relaying f.c) : ∃ g, proxyStep env (.flush n) f = .ok g ∧ Relaying g.c := by
  unfold proxyStep
  rw [if_neg (by rw [h.openc]; decide)]
  dsimp only
  unfold step
  rw [if_neg (by rw [h.openc]; decide)]
  dsimp only
  have e : f.c.out.drop n = [] := by rw [h.out]; simp
  rw [if_pos e]
  unfold clientWrite
  rw [show ({ f.c with sent := f.c.sent ++ f.c.out.take n, out := f.c.out.drop n } : Client).type = .proxy from h.type]
  exact ⟨_, rfl, rfl, h.code, by simp [h.sent, h.out], e, h.openc⟩

/-- the client's side of a relayed request -/
def LifeOk : UpLife → Prop
  | .shaking rd wr f => Relaying f.c ∧ (rd || wr) = true
  | .lost f => POver b%"43 handshake failed\r\n" f ∨ POver b%"43 timeout\r\n" f
  | .up _ => True

theorem upLife_step (env : Env) (inet : Bytes → Option Bytes) (i : Iri) (iribuf : Bytes) (t : TlsClient) (ev : UpLifeEv) (s s' : UpLife) (h : LifeOk s)
    (hs : upLifeStep env inet i iribuf t ev s = .ok s') : LifeOk s' := by
  cases s with
  | up u =>
    cases ev with
    | later e =>
      simp only [upLifeStep] at hs
      cases he : upStep env e u <;> rw [he] at hs <;> cases hs
      exact True.intro
    | _ => cases hs; exact h
  | lost f =>
    cases ev with
    | client n =>
      simp only [upLifeStep, UpLife.flush] at hs
      rcases h with h | h
      all_goals
        obtain ⟨g, e, hg⟩ := pover_step env _ (.flush n) f h
        rw [e] at hs
        cases hs
      · exact .inl hg
      · exact .inr hg
    | _ => cases hs; exact h
  | shaking rd wr f =>
    obtain ⟨hf, hw⟩ := h
    cases ev with
    | later e => cases hs; exact ⟨hf, hw⟩
    | client n =>
      simp only [upLifeStep, UpLife.flush] at hs
      obtain ⟨g, e, hg⟩ := relaying_flush env n f hf
      rw [e] at hs
      cases hs
      exact ⟨hg, hw⟩
    | timeout =>
      simp only [upLifeStep] at hs
      rw [if_neg (by rw [hf.openc]; decide)] at hs
      cases hs
      exact .inr (pover_43 env f hf b%"timeout" (by decide) (by decide))
    | ready r =>
      simp only [upLifeStep] at hs
      rw [if_neg (by rw [hf.openc]; decide)] at hs
      unfold proxyHandshake at hs
      split at hs
      · cases hs; exact ⟨hf, rfl⟩
      · cases hs; exact ⟨hf, rfl⟩
      · cases hs
        exact .inl (pover_43 env f hf b%"handshake failed" (by decide) (by decide))
      · unfold upGo at hs
        split at hs
        · cases hs
        · cases hs; exact True.intro

theorem upLife_run (env : Env) (inet : Bytes → Option Bytes) (i : Iri) (iribuf : Bytes) (t : TlsClient) (evs : List UpLifeEv) : ∀ s s' : UpLife, LifeOk s →
    upLifeRun env inet i iribuf t evs s = .ok s' → LifeOk s' := by
  induction evs with
  | nil => intro s s' h hs; cases hs; exact h
  | cons ev r ih =>
    intro s s' h hs
    rw [upLifeRun] at hs
    cases he : upLifeStep env inet i iribuf t ev s with
    | ok s1 => rw [he] at hs; exact ih s1 s' (upLife_step env inet i iribuf t ev s s1 h he) hs
    | err => rw [he] at hs; cases hs
    | ub => rw [he] at hs; cases hs

/-- **C125.** With TLS, at any moment: either the handshake goes on, the client has got nothing, and the event loop will call back; or it failed or took too long, the client
gets a 43 that says so and nothing else, and nothing was sent upstream; or it is complete. -/
theorem C125_told (env : Env) (inet : Bytes → Option Bytes) (i : Iri) (iribuf : Bytes) (loads : Bytes × Bytes → Bool) (p : CProxy) (hn : p.notls = false)
    (pair : Option (Bytes × Bytes)) (pre : Bytes) (f : PClient) (hf : Relaying f.c) (evs : List UpLifeEv) (s : UpLife)
    (hs : relayLife env inet i iribuf loads p pair pre f evs = some (.ok s)) :
    (∃ rd wr g, s = .shaking rd wr g ∧ (rd || wr) = true ∧ g.c.sent ++ g.c.out = [] ∧ g.c.closed = false) ∨
    (∃ g, s = .lost g ∧ s.carried = [] ∧ (g.c.sent ++ g.c.out = b%"43 handshake failed\r\n" ∨ g.c.sent ++ g.c.out = b%"43 timeout\r\n")) ∨
    ∃ u, s = .up u := by
  unfold relayLife at hs
  rw [if_neg (by rw [hn]; decide)] at hs
  split at hs
  · cases hs
  · rename_i t ht
    simp only [Option.some.injEq] at hs
    have := upLife_run env inet i iribuf t evs _ s (show LifeOk (.shaking true true { f with phase := .connecting }) from ⟨hf, rfl⟩) hs
    cases s with
    | up u => exact .inr (.inr ⟨u, rfl⟩)
    | lost g =>
      rcases this with h | h
      · exact .inr (.inl ⟨g, rfl, rfl, .inl h.del⟩)
      · exact .inr (.inl ⟨g, rfl, rfl, .inr h.del⟩)
    | shaking rd wr g => exact .inl ⟨rd, wr, g, rfl, this.2, by rw [this.1.sent, this.1.out]; rfl, this.1.openc⟩

theorem upLife_way (env : Env) (inet : Bytes → Option Bytes) (i : Iri) (iribuf : Bytes) (t : TlsClient) (msg : Bytes) (evs : List UpLifeEv) : ∀ (u : Up) (s : UpLife),
    OnItsWay msg u → upLifeRun env inet i iribuf t evs (.up u) = .ok s → ∃ u', s = .up u' ∧ OnItsWay msg u' := by
  induction evs with
  | nil => intro u s hu h; cases h; exact ⟨u, rfl, hu⟩
  | cons ev r ih =>
    intro u s hu h
    rw [upLifeRun] at h
    cases ev with
    | later e =>
      simp only [upLifeStep] at h
      cases he : upStep env e u with
      | ok u1 =>
        rw [he] at h
        exact ih u1 s (upRun_way msg [e] u u1 hu (by rw [upRun, he]; rfl)) h
      | err => rw [he] at h; cases h
      | ub => rw [he] at h; cases h
    | ready x => exact ih u s hu h
    | timeout => exact ih u s hu h
    | client n => exact ih u s hu h

/-- **C125.** Without TLS nothing is waited for: the PROXY line, if there is one, and then the request line are on their way at once, and stay so. -/
theorem C125_plain (env : Env) (inet : Bytes → Option Bytes) (i : Iri) (iribuf : Bytes) (loads : Bytes × Bytes → Bool) (p : CProxy) (hn : p.notls = true)
    (pair : Option (Bytes × Bytes)) (pre : Bytes) (f : PClient) (evs : List UpLifeEv)
    (hb : iribuf.length = 1027) (h1 : (0 : UInt8) ∉ i.schema) (h2 : (0 : UInt8) ∉ i.host) (h3 : (0 : UInt8) ∉ i.path) (h4 : (0 : UInt8) ∉ i.query) (s : UpLife)
    (hs : relayLife env inet i iribuf loads p pair pre f evs = some (.ok s)) :
    ∃ u, s = .up u ∧ OnItsWay (pre ++ ((iriText i).take 1026 ++ b%"\r\n")) u := by
  obtain ⟨u, hu, hw⟩ := C106_request_on_its_way env pre iribuf i f [] hb h1 h2 h3 h4
  unfold relayLife at hs
  rw [if_pos hn, hu] at hs
  simp only [Option.some.injEq] at hs
  exact upLife_way env inet i iribuf _ _ evs u s (hw u rfl) hs

/-! ## A concrete case -/

/-- libtls's own tls_config_parse_protocols -/
def utEnv : PEnv := { cfEnv with protos := libtlsProtos }

/-- a server with two proxy blocks -/
def utFile : List Directive :=
  [.server b%"h" [.cert b%"/c", .key b%"/k", .proxy [] [.relayTo b%"10.0.0.6" .none, .sni b%"up.example.org.", .protocols b%"tlsv1.3"],
    .proxy [] [.relayTo b%"other" .none, .verifyName false]]]

def utBlock : List ProxyMatch × List ProxyOpt := ([], [.relayTo b%"10.0.0.6" .none, .sni b%"up.example.org.", .protocols b%"tlsv1.3"])

/-- the file is accepted, and the block is the first of its only server -/
example : (parseConf utEnv confNew utFile).val?.map (·.2) = some true ∧ BlockAt utFile 0 0 utBlock ∧
    (∃ p, (parseConf utEnv confNew utFile).val?.map (·.1.hosts.map (·.proxies.head?)) = some [some p] ∧ p = proxyValue utEnv utBlock) := by
  refine ⟨by decide +kernel, ⟨_, rfl, rfl⟩, _, rfl, by decide +kernel⟩

/-- its name and what can be let in -/
example : UpstreamName utBlock.2 b%"up.example.org" ∧ lastOf pProtocolsOf utBlock.2 = some b%"tlsv1.3" :=
  ⟨⟨b%"up.example.org.", .inr rfl, .inl ⟨rfl, by decide⟩⟩, rfl⟩

/-- what became of a request to it: with a certificate for the name it is sent; with another one, or with TLS 1.2, it is not -/
def utRun (evs : List UpLifeEv) : Option (Bytes × Bytes) :=
  match relayLife exEnv (fun _ => none) exIri (List.replicate 1027 1) (fun _ => true) (proxyValue utEnv utBlock) none [] { c := exRel } evs with
  | some (.ok s) => some (s.carried, s.client.sent ++ s.client.out)
  | _ => none

example : utRun [.ready .wantOut, .ready .wantIn, .ready (.done .tls13 (some ⟨some [.dns true b%"*.example.org"], []⟩) false), .later (.writable (.got 12))] =
    some (b%"gemini://ex.", []) := by decide +kernel

example : utRun [.ready .wantIn, .ready (.done .tls13 (some ⟨some [.dns true b%"other.org"], []⟩) true), .later (.writable (.got 12))] =
    some ([], b%"43 handshake failed\r\n") := by decide +kernel

example : utRun [.ready .wantIn, .ready (.done .tls12 (some ⟨some [.dns true b%"up.example.org"], []⟩) true), .later (.writable (.got 12))] =
    some ([], b%"43 handshake failed\r\n") := by decide +kernel

example : utRun [.ready .wantIn, .timeout, .client 5, .ready (.done .tls13 (some ⟨some [.dns true b%"up.example.org"], []⟩) true)] =
    some ([], b%"43 timeout\r\n") := by decide +kernel

/-- without TLS: the PROXY line goes first -/
example : (relayLife exEnv (fun _ => none) exIri (List.replicate 1027 1) (fun _ => true) { proxyValue utEnv utBlock with notls := true } none
      b%"PROXY UNKNOWN\r\n" { c := exRel } [.timeout, .later (.writable (.got 27))]).bind (fun x => x.val?.map (·.carried)) =
    some b%"PROXY UNKNOWN\r\ngemini://ex." := by decide +kernel

/-- the name of no block is empty, unless it is written as a single dot -/
example : ¬ UpstreamName utBlock.2 [] := by
  intro h
  have := upstreamName_unique _ _ _ h ⟨b%"up.example.org.", .inr (show b%"up.example.org." = b%"up.example.org" ++ b%"." from rfl), .inl ⟨rfl, by decide⟩⟩
  cases this

end Gmid.Props

import Verif.Spec.Ocsp
import Verif.Props.TlsName
import Verif.Props.Config

/-!
# C144: the OCSP response goes with the certificate
-/

set_option autoImplicit false

namespace Gmid.Props
open Gmid.Spec

/-- the key pair of a server -/
def pairOf (h : OHost) : OPair := { cert := some h.cert, staple := h.ocsp }

/-- the key pairs there are, once there are any -/
def allO (s : OTls × Bool) : List OPair := if s.2 then s.1.first :: s.1.rest else []

/-- the servers that listen on `addr` -/
def listeningO (addr : AddrInfo) (hosts : List OHost) : List OHost := hosts.flatMap fun h => (h.addrs.filter (· == addr)).map fun _ => h

theorem mem_listeningO (addr : AddrInfo) (hosts : List OHost) (h : OHost) : h ∈ listeningO addr hosts ↔ h ∈ hosts ∧ addr ∈ h.addrs := by
  simp only [listeningO, List.mem_flatMap, List.mem_map, List.mem_filter, beq_iff_eq]
  constructor
  · rintro ⟨x, hx, a, ⟨ha, rfl⟩, rfl⟩; exact ⟨hx, ha⟩
  · rintro ⟨hx, ha⟩; exact ⟨h, hx, addr, ⟨ha, rfl⟩, rfl⟩

theorem addOPairsOf_all (addr : AddrInfo) (h : OHost) (as : List AddrInfo) (t : OTls) (any : Bool) (hi : any = false → t = {}) :
    allO (addOPairsOf addr h as (t, any)) = allO (t, any) ++ (as.filter (· == addr)).map (fun _ => pairOf h) ∧
      ((addOPairsOf addr h as (t, any)).2 = false → (addOPairsOf addr h as (t, any)).1 = {}) := by
  induction as generalizing t any with
  | nil => exact ⟨by simp [addOPairsOf], hi⟩
  | cons a r ih =>
    rw [addOPairsOf]
    by_cases hm : a = addr
    · have hm' : matchAddr addr a = true := (matchAddr_iff _ _).mpr hm.symm
      simp only [hm', Bool.not_true, Bool.false_eq_true, if_false]
      cases any with
      | false =>
        have ht := hi rfl
        subst ht
        simp only [Bool.not_false, if_true]
        have := ih (setOPair {} h.cert h.ocsp) true (by simp)
        refine ⟨this.1.trans ?_, this.2⟩
        simp only [allO, hm, List.filter_cons, beq_self_eq_true, if_true, List.map_cons, Bool.false_eq_true, if_false, List.nil_append, setOPair,
          setMemO, pairOf]
        cases h.ocsp <;> simp
      | true =>
        simp only [Bool.not_true, Bool.false_eq_true, if_false]
        have := ih (addOPair t h.cert h.ocsp) true (by simp)
        refine ⟨this.1.trans ?_, this.2⟩
        simp only [allO, hm, List.filter_cons, beq_self_eq_true, if_true, List.map_cons, addOPair, setMemO, pairOf]
        cases h.ocsp <;> simp
    · have hm' : matchAddr addr a = false := by
        cases hx : matchAddr addr a
        · rfl
        · exact absurd ((matchAddr_iff _ _).mp hx).symm hm
      simp only [hm', Bool.not_false, if_true]
      have := ih t any hi
      refine ⟨this.1.trans ?_, this.2⟩
      simp [hm]

theorem addOHosts_all (addr : AddrInfo) (hosts : List OHost) (t : OTls) (any : Bool) (hi : any = false → t = {}) :
    allO (addOHosts addr hosts (t, any)) = allO (t, any) ++ (listeningO addr hosts).map pairOf := by
  induction hosts generalizing t any with
  | nil => simp [addOHosts, listeningO]
  | cons x r ih =>
    rw [addOHosts]
    obtain ⟨h1, h2⟩ := addOPairsOf_all addr x x.addrs t any hi
    have := ih _ _ h2
    rw [show addOPairsOf addr x x.addrs (t, any) = ((addOPairsOf addr x x.addrs (t, any)).1, (addOPairsOf addr x x.addrs (t, any)).2) from rfl, this, h1]
    simp [listeningO]

/-- the key pairs of an address some server listens on -/
theorem setupOTls_all (addr : AddrInfo) (hosts : List OHost) (hl : ∃ h ∈ hosts, addr ∈ h.addrs) :
    (setupOTls addr hosts).first :: (setupOTls addr hosts).rest = (listeningO addr hosts).map pairOf := by
  have h := addOHosts_all addr hosts {} false (fun _ => rfl)
  obtain ⟨x, hx, ha⟩ := hl
  have hne : listeningO addr hosts ≠ [] := by
    intro e
    have := (mem_listeningO addr hosts x).2 ⟨hx, ha⟩
    rw [e] at this
    cases this
  simp only [allO, Bool.false_eq_true, if_false, List.nil_append] at h
  by_cases hs : (addOHosts addr hosts ({}, false)).2 = true
  · rw [if_pos hs] at h; exact h
  · rw [if_neg hs] at h
    exact absurd (List.map_eq_nil_iff.1 h.symm) hne

/-- the connection is that of a server of `l` -/
def Of (l : List OHost) (c : OConn) : Prop := ∃ h ∈ l, c.pair = pairOf h ∧ c.shown = some h.cert

theorem sniCtxLoop_mem (dec : Bytes → CertNames) (inet : Bytes → Option Bytes) (name : Bytes) (l : List SniCtx) (s : SniCtx)
    (h : sniCtxLoop dec inet name l = some (some s)) : s ∈ l ∧ tlsCheckName inet (dec s.sslCert) name = some true := by
  induction l with
  | nil => simp [sniCtxLoop] at h
  | cons x r ih =>
    rw [sniCtxLoop] at h
    cases hc : tlsCheckName inet (dec x.sslCert) name with
    | none => rw [hc] at h; cases h
    | some b =>
      rw [hc] at h
      cases b with
      | true => cases h; exact ⟨by simp, hc⟩
      | false => exact ⟨List.mem_cons_of_mem _ (ih h).1, (ih h).2⟩

theorem servernameCb_of (dec : Bytes → CertNames) (inet : Bytes → Option Bytes) (l : List OHost) (snis : List SniCtx)
    (hs : ∀ s ∈ snis, ∃ h ∈ l, s = { pair := pairOf h, shown := some h.cert, sslCert := h.cert }) (c : OConn) (hc : Of l c) (sni : Option Bytes) :
    Of l (servernameCb dec inet snis c sni).1 := by
  unfold servernameCb
  cases sni with
  | none => exact hc
  | some name =>
    dsimp only
    by_cases hi : (inet name).isSome
    · rw [if_pos hi]; exact hc
    · rw [if_neg hi]
      cases hx : sniCtxLoop dec inet name snis with
      | none => exact hc
      | some x =>
        cases x with
        | none => exact hc
        | some s =>
          obtain ⟨h, hh, rfl⟩ := hs s (sniCtxLoop_mem _ _ _ _ _ hx).1
          exact ⟨h, hh, rfl, rfl⟩

theorem hellosO_of (dec : Bytes → CertNames) (inet : Bytes → Option Bytes) (l : List OHost) (snis : List SniCtx)
    (hs : ∀ s ∈ snis, ∃ h ∈ l, s = { pair := pairOf h, shown := some h.cert, sslCert := h.cert }) (hellos : List (Option Bytes)) (c c' : OConn) (hc : Of l c)
    (hr : hellosO dec inet snis c hellos = some c') : Of l c' := by
  induction hellos generalizing c with
  | nil => cases hr; exact hc
  | cons x r ih =>
    have := servernameCb_of dec inet l snis hs c hc x
    rw [hellosO] at hr
    generalize servernameCb dec inet snis c x = y at *
    obtain ⟨c1, a⟩ := y
    cases a with
    | alert => cases hr
    | ok => exact ih c1 this hr
    | noack => exact ih c1 this hr

theorem configureSni_of (t : OTls) (l : List OHost) (h : t.first :: t.rest = l.map pairOf) :
    ∀ s ∈ configureSni t, ∃ h ∈ l, s = { pair := pairOf h, shown := some h.cert, sslCert := h.cert } := by
  intro s hs
  obtain ⟨p, hp, rfl⟩ := List.mem_map.1 hs
  have : p ∈ l.map pairOf := by rw [← h]; exact List.mem_cons_of_mem _ hp
  obtain ⟨x, hx, rfl⟩ := List.mem_map.1 this
  exact ⟨x, hx, rfl⟩

theorem acceptO_of (t : OTls) (l : List OHost) (h : t.first :: t.rest = l.map pairOf) : Of l (acceptO t) := by
  have : t.first ∈ l.map pairOf := by rw [← h]; simp
  obtain ⟨x, hx, he⟩ := List.mem_map.1 this
  exact ⟨x, hx, by simp [acceptO, he], by simp [acceptO, ← he, pairOf]⟩

theorem staplingCb_pair (mem set : Bool) (c : OConn) (h : OHost) (hp : c.pair = pairOf h) :
    (∀ d, staplingCb mem set c = .ok d → h.ocsp = some d ∧ d ≠ []) ∧ StapleOf h.ocsp (staplingCb true true c) ∧
      (h.ocsp = none ∨ h.ocsp = some [] → staplingCb mem set c = .noack) ∧
      (h.ocsp ≠ none → h.ocsp ≠ some [] → (mem && set) = false → staplingCb mem set c = .alert) := by
  unfold staplingCb
  rw [hp]
  simp only [pairOf]
  cases ho : h.ocsp with
  | none => simp [StapleOf]
  | some d =>
    cases d with
    | nil => simp [StapleOf]
    | cons x r => cases mem <;> cases set <;> simp [StapleOf]

/-- **C144.** On an address some server listens on, whatever names the client asks for and however many ClientHellos it takes: the certificate that is shown is
that of a server that listens there, and what is stapled to it is the response of the same server.  Nothing is stapled when it has none or it is
empty; if it has one, it is stapled unless there is no memory for it, and then the handshake fails. -/
theorem C144_goes_with_the_certificate (dec : Bytes → CertNames) (inet : Bytes → Option Bytes) (addr : AddrInfo) (hosts : List OHost)
    (hl : ∃ h ∈ hosts, addr ∈ h.addrs) (hellos : List (Option Bytes)) (c : OConn) (hr : handshakeO dec inet (setupOTls addr hosts) hellos = some c) :
    ∃ h ∈ hosts, addr ∈ h.addrs ∧ c.shown = some h.cert ∧ StapleOf h.ocsp (staplingCb true true c) ∧
      (∀ mem set d, staplingCb mem set c = .ok d → h.ocsp = some d) ∧
      (h.ocsp = none ∨ h.ocsp = some [] → ∀ mem set, staplingCb mem set c = .noack) ∧
      (h.ocsp ≠ none → h.ocsp ≠ some [] → ∀ mem set, (mem && set) = false → staplingCb mem set c = .alert) := by
  have ha := setupOTls_all addr hosts hl
  obtain ⟨h, hh, h1, h2⟩ := hellosO_of dec inet (listeningO addr hosts) _ (configureSni_of _ _ ha) hellos _ c (acceptO_of _ _ ha) hr
  obtain ⟨h3, h4⟩ := (mem_listeningO _ _ _).1 hh
  exact ⟨h, h3, h4, h2, (staplingCb_pair true true c h h1).2.1, fun mem set d e => ((staplingCb_pair mem set c h h1).1 d e).1,
    fun e mem set => (staplingCb_pair mem set c h h1).2.2.1 e,
    fun e1 e2 mem set e3 => (staplingCb_pair mem set c h h1).2.2.2 e1 e2 e3⟩

theorem sniCtxLoop_defined (dec : Bytes → CertNames) (inet : Bytes → Option Bytes) (name : Bytes) (l : List SniCtx)
    (hp : ∀ s ∈ l, ProperCert (dec s.sslCert)) :
    ∃ r, sniCtxLoop dec inet name l = some r ∧ (r = none → ∀ s ∈ l, ¬ Covers (inet name) (dec s.sslCert) name) := by
  induction l with
  | nil => exact ⟨none, rfl, by simp⟩
  | cons s r ih =>
    obtain ⟨b, hb⟩ := C97_judged inet (dec s.sslCert) name (hp s (by simp))
    rw [sniCtxLoop, hb]
    cases b with
    | true => exact ⟨_, rfl, by simp⟩
    | false =>
      obtain ⟨x, hx, hno⟩ := ih (fun k hk => hp k (by simp [hk]))
      refine ⟨x, hx, fun e k hk => ?_⟩
      rcases List.mem_cons.1 hk with rfl | hk
      · intro hc
        have := (C97_accepted _ _ _ _ hb).mpr hc
        cases this
      · exact hno e k hk

theorem hellosO_again (dec : Bytes → CertNames) (inet : Bytes → Option Bytes) (snis : List SniCtx) (sni : Option Bytes) (n : Nat) (c c1 : OConn) (a : SniAck)
    (h : servernameCb dec inet snis c sni = (c1, a)) (ha : a ≠ .alert) : hellosO dec inet snis c (List.replicate (n + 1) sni) = some c1 := by
  have again : servernameCb dec inet snis c1 sni = (c1, a) := by
    unfold servernameCb at h ⊢
    cases sni with
    | none => cases h; rfl
    | some name =>
      dsimp only at h ⊢
      by_cases hi : (inet name).isSome
      · rw [if_pos hi] at h ⊢; cases h; rfl
      · rw [if_neg hi] at h ⊢
        cases hx : sniCtxLoop dec inet name snis with
        | none => rw [hx] at h; cases h; exact absurd rfl ha
        | some x =>
          rw [hx] at h
          cases x <;> cases h <;> rfl
  have step : ∀ (c : OConn), servernameCb dec inet snis c sni = (c1, a) → ∀ r, hellosO dec inet snis c (sni :: r) = hellosO dec inet snis c1 r := by
    intro c h r
    rw [hellosO, h]
    cases a with
    | alert => exact absurd rfl ha
    | ok => rfl
    | noack => rfl
  rw [List.replicate_succ, step c h]
  induction n with
  | zero => rfl
  | succ n ih => rw [List.replicate_succ, step c1 again]; exact ih

/-- **C144.** With certificates as they should be (C97), the handshake goes on, and the certificate that is shown is good for the name that is asked for if any on
that address is; a client that names nothing gets that of the first server. -/
theorem C144_the_right_certificate (dec : Bytes → CertNames) (inet : Bytes → Option Bytes) (addr : AddrInfo) (hosts : List OHost)
    (hl : ∃ h ∈ hosts, addr ∈ h.addrs) (hp : ∀ h ∈ hosts, ProperCert (dec h.cert)) (sni : Option Bytes) (n : Nat) :
    ∃ c, handshakeO dec inet (setupOTls addr hosts) (List.replicate (n + 1) sni) = some c ∧
      (∀ name, sni = some name → inet name = none → (∃ h ∈ hosts, addr ∈ h.addrs ∧ Covers none (dec h.cert) name) →
        ∃ crt, c.shown = some crt ∧ Covers none (dec crt) name) ∧
      (sni = none → ∀ h, hosts.find? (fun h => decide (addr ∈ h.addrs)) = some h → c.shown = some h.cert) := by
  have ha := setupOTls_all addr hosts hl
  have hcs := configureSni_of _ _ ha
  have hps : ∀ s ∈ configureSni (setupOTls addr hosts), ProperCert (dec s.sslCert) := by
    intro s hs
    obtain ⟨h, hh, rfl⟩ := hcs s hs
    exact hp h ((mem_listeningO _ _ _).1 hh).1
  -- the key pair of an address is that of the first server there
  have hfirst : ∀ h, hosts.find? (fun h => decide (addr ∈ h.addrs)) = some h → (acceptO (setupOTls addr hosts)).shown = some h.cert := by
    intro h hf
    have : (listeningO addr hosts).head? = some h := by
      clear hp hps hcs ha hl
      induction hosts with
      | nil => cases hf
      | cons x r ih =>
        by_cases hx : addr ∈ x.addrs
        · rw [List.find?_cons_of_pos (by simpa using hx)] at hf
          cases hf
          have hne : (h.addrs.filter (· == addr)).map (fun _ => h) ≠ [] := by
            intro e
            rw [List.map_eq_nil_iff, List.filter_eq_nil_iff] at e
            exact e addr hx (by simp)
          simp only [listeningO, List.flatMap_cons]
          cases hy : (h.addrs.filter (· == addr)) with
          | nil => rw [hy] at hne; exact absurd rfl hne
          | cons y ys => simp
        · rw [List.find?_cons_of_neg (by simpa using hx)] at hf
          have : x.addrs.filter (· == addr) = [] := by
            rw [List.filter_eq_nil_iff]
            intro a h1 h2
            rw [beq_iff_eq] at h2
            exact hx (h2 ▸ h1)
          simp only [listeningO, List.flatMap_cons, this, List.map_nil, List.nil_append]
          exact ih hf
    obtain ⟨rs, hrs⟩ : ∃ rs, listeningO addr hosts = h :: rs := by
      cases hx : listeningO addr hosts with
      | nil => rw [hx] at this; cases this
      | cons a r => rw [hx] at this; cases this; exact ⟨r, rfl⟩
    rw [hrs] at ha
    simp only [List.map_cons, List.cons.injEq] at ha
    simp [acceptO, ha.1, pairOf]
  unfold handshakeO
  cases sni with
  | none => exact ⟨_, hellosO_again dec inet _ none n _ (acceptO (setupOTls addr hosts)) .noack rfl (by simp), by simp, fun _ => hfirst⟩
  | some name =>
    cases hi : inet name with
    | some x =>
      refine ⟨_, hellosO_again dec inet _ (some name) n _ (acceptO (setupOTls addr hosts)) .noack ?_ (by simp), ?_, by simp⟩
      · simp [servernameCb, hi]
      · intro m e hn
        cases e
        rw [hi] at hn
        cases hn
    | none =>
      obtain ⟨r, hr, hno⟩ := sniCtxLoop_defined dec inet name _ hps
      cases r with
      | some s =>
        refine ⟨_, hellosO_again dec inet _ (some name) n _ { acceptO (setupOTls addr hosts) with servername := some name, pair := s.pair, shown := s.shown } .ok ?_ (by simp), ?_, by simp⟩
        · simp [servernameCb, hi, hr]
        · rintro m ⟨⟩ _ _
          obtain ⟨hm, hck⟩ := sniCtxLoop_mem _ _ _ _ _ hr
          obtain ⟨h, hh, rfl⟩ := hcs s hm
          have := (C97_accepted _ _ _ _ hck).mp rfl
          rw [hi] at this
          exact ⟨h.cert, rfl, this⟩
      | none =>
        refine ⟨_, hellosO_again dec inet _ (some name) n _ { acceptO (setupOTls addr hosts) with servername := some name } .ok ?_ (by simp), ?_, by simp⟩
        · simp [servernameCb, hi, hr]
        · rintro m ⟨⟩ _ ⟨h, hh, had, hc⟩
          have hmem : pairOf h ∈ (setupOTls addr hosts).first :: (setupOTls addr hosts).rest := by
            rw [ha]; exact List.mem_map.2 ⟨h, (mem_listeningO _ _ _).2 ⟨hh, had⟩, rfl⟩
          rcases List.mem_cons.1 hmem with hx | hx
          · exact ⟨h.cert, by simp [acceptO, ← hx, pairOf], hc⟩
          · have := hno rfl { pair := pairOf h, shown := some h.cert, sslCert := h.cert } (List.mem_map.2 ⟨pairOf h, hx, rfl⟩)
            rw [hi] at this
            exact absurd hc this

section
variable {L E P C F K : Type}

/-- **C144.** From the file to the client: when a configuration has been sent to a server process, each handshake on an address that one of its servers listens on
shows the certificate in the file of such a server, and staples what is in the file of its `ocsp` option, if it has one that is not empty. -/
theorem C144_from_the_files (files : Bytes → Option Bytes) (loadCa : Bytes → Option C) (hash : Bytes → Option Bytes) (loadKey : Bytes → Option K)
    (sup : AddrInfo → Bool) (c : PConf L E P AddrInfo F) (ms : List (Proc × CMsg L E P AddrInfo F)) (hsent : mainConfigure files sup c = some ms)
    (hm : MimesFit c) (hca : CasLoad files loadCa c) (st0 : WState L E P AddrInfo F C K) (dec : Bytes → CertNames) (inet : Bytes → Option Bytes)
    (addr : AddrInfo) (hl : ∃ x ∈ c.hosts, addr ∈ x.addrs) :
    ∃ st, recvAll files loadCa hash loadKey .server st0 (forProc .server ms) = .ok st ∧
      ∀ (hellos : List (Option Bytes)) (conn : OConn), handshakeO dec inet (setupOTls addr (st.hosts.map oHostOf)) hellos = some conn →
        ∃ x ∈ c.hosts, addr ∈ x.addrs ∧ conn.shown = files x.cert ∧ StapleOf (x.ocsp.bind files) (staplingCb true true conn) := by
  obtain ⟨st, h1, h2, _⟩ := C38_server files loadCa hash loadKey sup c ms hsent hm hca st0
  obtain ⟨_, _, hf⟩ := mainConfigure_some hsent
  refine ⟨st, h1, fun hellos conn hr => ?_⟩
  have hh : st.hosts.map oHostOf = c.hosts.map (fun x => { addrs := x.addrs, cert := (files x.cert).getD [], ocsp := x.ocsp.bind files }) := by
    rw [h2.2.2.2.2.2, List.map_map]
    exact List.map_congr_left fun x _ => by simp [oHostOf, expHost]
  rw [hh] at hr
  obtain ⟨h, hm1, hm2, hm3, hm4, _⟩ := C144_goes_with_the_certificate dec inet addr _ (by
    obtain ⟨x, hx, ha⟩ := hl
    exact ⟨_, List.mem_map.2 ⟨x, hx, rfl⟩, ha⟩) hellos conn hr
  obtain ⟨x, hx, rfl⟩ := List.mem_map.1 hm1
  refine ⟨x, hx, hm2, ?_, hm4⟩
  have := (hf x hx).1
  cases hcx : files x.cert with
  | none => rw [hcx] at this; cases this
  | some d => rw [hm3]; simp [hcx]

end

/-- two servers on one address, with names as the certificates say; only one has a response -/
def exOHosts : List OHost :=
  [{ addrs := [exListenAi 1], cert := b%"a", ocsp := none }, { addrs := [exListenAi 2, exListenAi 1], cert := b%"b", ocsp := some b%"good" }]

def exDec (c : Bytes) : CertNames := { alts := some [.dns true c], cns := [] }

example : ((handshakeO exDec (fun _ => none) (setupOTls (exListenAi 1) exOHosts) [some b%"b", some b%"b"]).map
      (fun c => (c.shown, staplingCb true true c, staplingCb false true c))) = some (some b%"b", .ok b%"good", .alert) ∧
    ((handshakeO exDec (fun _ => none) (setupOTls (exListenAi 1) exOHosts) [none]).map (fun c => (c.shown, staplingCb true true c))) =
      some (some b%"a", .noack) := by
  decide +kernel

example : (∃ h ∈ exOHosts, exListenAi 1 ∈ h.addrs) ∧ ∀ h ∈ exOHosts, ProperCert (exDec h.cert) := by
  refine ⟨⟨_, List.mem_cons_self, by decide⟩, ?_⟩
  intro h hh
  simp only [exOHosts, List.mem_cons, List.not_mem_nil, or_false] at hh
  rcases hh with rfl | rfl <;> exact ⟨⟨_, rfl, by simp⟩, .inl rfl⟩

/-- a configuration, for the example -/
def exOConf : PConf Unit Unit Unit AddrInfo Unit :=
  { logFormat := 0, mime := [], protos := 24, addrs := [exListenAi 1], fcgi := [], privsep := true
    hosts := [{ domain := b%"b", cert := b%"b.pem", key := b%"b.key", ocsp := some b%"b.ocsp", addrs := [exListenAi 1], locs := [], aliases := [], proxies := [] }] }

/-- the hypotheses of C144_from_the_files are met, and there is a response to staple -/
example : (∃ ms, mainConfigure some (fun _ => true) exOConf = some ms) ∧ MimesFit exOConf ∧ CasLoad some (fun d => some d) exOConf ∧
    (∃ x ∈ exOConf.hosts, exListenAi 1 ∈ x.addrs ∧ x.ocsp.bind some = some b%"b.ocsp") := by
  refine ⟨⟨_, rfl⟩, by simp [MimesFit, exOConf], ?_, ⟨_, List.mem_cons_self, by decide⟩⟩
  intro h hh path hp
  simp only [exOConf, List.mem_cons, List.not_mem_nil, or_false] at hh
  subst hh
  simp at hp

end Gmid.Props

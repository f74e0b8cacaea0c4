import Verif.Spec.DeployUp
import Verif.Props.Deploy
import Verif.Props.Upstream

/-!
# C116: what a proxy block of the file says is what is relayed

From the text of the configuration file to the bytes the upstream server and the client get.
-/

set_option autoImplicit false

namespace Gmid.Props
open Gmid.Spec

/-! ## a relayed request never gets stuck in the model -/

theorem startReply_notDir (env : Env) (c : Client) (code : Int) (mt : Bytes) (h : c.type ≠ .dir) : (startReply env c code mt).type ≠ .dir := by
  rcases startReply_replied env c code mt with hr | hr <;>
    · rw [hr.type]
      split
      · intro e; cases e
      · exact h

theorem clientWrite_total (env : Env) (bufsiz : Nat) (rd : Option Bytes) (c : Client) (h : c.type ≠ .dir) :
    ∃ c', clientWrite env bufsiz rd c = .ok c' ∧ c'.type ≠ .dir := by
  unfold clientWrite
  split
  · exact ⟨_, rfl, h⟩
  · split
    · refine ⟨_, rfl, ?_⟩
      simp only [clientError, clientClose]
      intro e; cases e
    · exact ⟨_, rfl, h⟩
    · refine ⟨_, rfl, ?_⟩
      dsimp only
      split
      · intro e; cases e
      · exact h
  · rename_i hd; exact absurd hd h
  · exact ⟨_, rfl, h⟩
  · exact ⟨_, rfl, h⟩
  · refine ⟨_, rfl, ?_⟩
    split
    · exact h
    · exact h

theorem proxyError_total (env : Env) (f : PClient) (h : f.c.type ≠ .dir) : ∃ g, proxyError env f = .ok g ∧ g.c.type ≠ .dir := by
  unfold proxyError
  dsimp only
  split
  · exact ⟨_, rfl, startReply_notDir env _ _ _ h⟩
  · obtain ⟨c', h1, h2⟩ := clientWrite_total env 0 none { f.c with pfd := -1, type := .done } (by intro e; cases e)
    rw [h1]
    exact ⟨_, rfl, h2⟩

theorem proxyRead_total (env : Env) (f : PClient) (data : Bytes) (h : f.c.type ≠ .dir) : ∃ g, proxyRead env f data = .ok g ∧ g.c.type ≠ .dir := by
  unfold proxyRead
  dsimp only
  split
  · split
    · split
      · exact proxyError_total env _ h
      · exact ⟨_, rfl, h⟩
    · split
      · split
        · exact proxyError_total env _ h
        · split
          · exact proxyError_total env _ h
          · split
            · exact proxyError_total env _ (startReply_notDir env _ _ _ h)
            · exact ⟨_, rfl, startReply_notDir env _ _ _ h⟩
      · exact proxyError_total env _ h
  · exact ⟨_, rfl, h⟩

theorem upStep_total (env : Env) (ev : UpEv) (u : Up) (h : u.f.c.type ≠ .dir) : ∃ u', upStep env ev u = .ok u' ∧ u'.f.c.type ≠ .dir := by
  have hw : ∀ (w : Up) (r : Res PClient), (∃ g, r = .ok g ∧ g.c.type ≠ .dir) → ∃ u', w.with r = .ok u' ∧ u'.f.c.type ≠ .dir := by
    rintro w _ ⟨g, rfl, hg⟩
    exact ⟨{ w with f := g }, rfl, hg⟩
  unfold upStep
  split
  · exact ⟨_, rfl, h⟩
  · rename_i hc
    split
    · split
      · unfold upReadable
        dsimp only
        split
        · exact ⟨_, rfl, h⟩
        · exact hw _ _ (proxyError_total env _ h)
        · exact hw _ _ (proxyError_total env _ h)
        · exact hw _ _ (proxyRead_total env _ _ h)
      · exact ⟨_, rfl, h⟩
    · split
      · unfold upWritable
        dsimp only
        split
        · exact ⟨_, rfl, h⟩
        · split
          · exact ⟨_, rfl, h⟩
          · exact hw _ _ (proxyError_total env _ h)
          · split <;> exact ⟨_, rfl, h⟩
      · exact ⟨_, rfl, h⟩
    · rename_i n
      have hst : ∃ c', step env 0 (.writable n none) u.f.c = .ok c' ∧ c'.type ≠ .dir := by
        unfold step
        rw [if_neg hc]
        dsimp only
        by_cases hd : u.f.c.out.drop n = []
        · rw [if_pos hd]
          exact clientWrite_total env 0 none _ h
        · rw [if_neg hd]
          exact ⟨_, rfl, h⟩
      obtain ⟨c', h1, h2⟩ := hst
      refine hw _ _ ⟨{ u.f with c := c' }, ?_, h2⟩
      unfold proxyStep
      rw [if_neg hc]
      dsimp only
      rw [h1]

theorem upRun_total (env : Env) (evs : List UpEv) : ∀ u : Up, u.f.c.type ≠ .dir → ∃ u', upRun env evs u = .ok u' := by
  induction evs with
  | nil => intro u _; exact ⟨u, rfl⟩
  | cons ev r ih =>
    intro u h
    obtain ⟨u1, h1, h2⟩ := upStep_total env ev u h
    obtain ⟨u', h3⟩ := ih u1 h2
    exact ⟨u', by unfold upRun; rw [h1]; exact h3⟩

theorem sublist_same {α : Type} [DecidableEq α] : ∀ (l l' : List α), l'.Sublist l → (∀ a ∈ l, l'.count a = l.count a) → l' = l := by
  intro l l' h
  induction h with
  | slnil => intro _; rfl
  | @cons l1 l2 a hs _ =>
    intro hc
    have h1 := hc a (by simp)
    have h2 := hs.count_le a
    rw [List.count_cons_self] at h1
    omega
  | @cons_cons l1 l2 a hs ih =>
    intro hc
    rw [ih]
    intro b hb
    have := hc b (by simp [hb])
    rw [List.count_cons, List.count_cons] at this
    omega

/-! ## the relay of the file -/

section
variable {penv : PEnv} {files : Bytes → Option Bytes} {loadCa : Bytes → Option Nat} {openDir : Bytes → Option Int}
  {txt : Bytes} {ds : List Directive} {c : CConf} {env : Env}

/-- the relay a block of the file describes -/
def relayIn (penv : PEnv) (files : Bytes → Option Bytes) (loadCa : Bytes → Option Nat) (y : List ProxyMatch × List ProxyOpt) : Proxy :=
  (proxyValue penv y).toProxy (caIn files loadCa)

theorem blockFor_iff (fnm : Bytes → Bytes → Bool) (y : List ProxyMatch × List ProxyOpt) (schema name port : Bytes) :
    BlockFor penv fnm y schema name port ↔ RelayMatches fnm (relayIn penv files loadCa y) schema name port := by
  have e1 : said ((lastOf forHostOf y.1).map (·.1)) b%"*" = if (relayIn penv files loadCa y).matchHost = [] then b%"*" else (relayIn penv files loadCa y).matchHost := rfl
  have e2 : said ((lastOf forHostOf y.1).bind fun h => (portValue penv h.2).map intDec) b%"*" =
      if (relayIn penv files loadCa y).matchPort = [] then b%"*" else (relayIn penv files loadCa y).matchPort := by
    have e : ((lastOf forHostOf y.1).bind fun h => (portValue penv h.2).map intDec) = ((lastOf forHostOf y.1).bind fun h => portValue penv h.2).map intDec := by
      generalize lastOf forHostOf y.1 = o
      cases o <;> rfl
    rw [e]; rfl
  have e3 : said (lastOf protoOf y.1) b%"gemini" = if (relayIn penv files loadCa y).matchProto = [] then b%"gemini" else (relayIn penv files loadCa y).matchProto := rfl
  unfold BlockFor RelayMatches
  rw [e1, e2, e3]

theorem firstBlock_relay {fnm : Bytes → Bytes → Bool} {x : Bytes × List SrvOpt} {schema name port : Bytes} {y : List ProxyMatch × List ProxyOpt}
    (h : FirstBlock penv fnm x.2 schema name port y) :
    RelayIs fnm (hostIn penv files loadCa openDir c x) schema name port (relayIn penv files loadCa y) := by
  obtain ⟨b, a, e, h1, h2⟩ := h
  refine ⟨b.map (relayIn penv files loadCa), a.map (relayIn penv files loadCa), ?_, (blockFor_iff fnm y _ _ _).1 h1, ?_⟩
  · simp only [hostIn, CHost.toVhost, hostValue, e, List.map_append, List.map_cons, List.map_map]
    rfl
  · intro q hq hm
    obtain ⟨z, hz, rfl⟩ := List.mem_map.1 hq
    exact h2 z hz ((blockFor_iff fnm z _ _ _).2 hm)

/-- what the relay is -/
theorem relayIn_of (h : Serving penv files loadCa openDir txt ds c env) {name : Bytes} {x : Bytes × List SrvOpt} (hx : LastServer env.fnm ds name x)
    {y : List ProxyMatch × List ProxyOpt} (hy : y ∈ x.2.filterMap proxyOf) : RelayOf penv files loadCa y (relayIn penv files loadCa y) := by
  obtain ⟨c0, c1, hf, hp, _⟩ := runs_parsed h.runs
  have hok := ((C69_accepted_partial penv h.resolves c0 hf ds c1 true hp).1 rfl).1
  obtain ⟨bf, af, e, _⟩ := hx
  obtain ⟨d, hd, hdx⟩ := List.mem_filterMap.mp (show x ∈ ds.filterMap serverOf by rw [e]; simp)
  have hd' : d = .server x.1 x.2 := by
    cases d <;> simp [serverOf] at hdx
    subst hdx; rfl
  have hb := hok d hd
  rw [hd'] at hb
  obtain ⟨o, ho, hoy⟩ := List.mem_filterMap.mp hy
  have ho' : o = .proxy y.1 y.2 := by
    cases o <;> simp [proxyOf] at hoy
    subst hoy; rfl
  have hpo := hb.2.1 o ho
  rw [ho'] at hpo
  obtain ⟨_, h2, ⟨s, pa, h3, h4⟩, _⟩ := hpo
  refine ⟨?_, ?_, rfl, ?_⟩
  · obtain ⟨o', k1, k2⟩ := lastOf_mem h3
    have k3 := h2 o' k1
    have : o' = .relayTo s pa := by
      cases o' <;> simp [pRelayOf] at k2
      rw [k2.1, k2.2]
    rw [this] at k3
    obtain ⟨n, hn⟩ := Option.ne_none_iff_exists'.1 k3.2
    refine ⟨pa, n, ?_, ?_, hn, ?_⟩
    · simp [relayIn, CProxy.toProxy, proxyValue, hostText, h3]
    · simp [relayIn, CProxy.toProxy, proxyValue, hostText, h3, h4]
    · simp [relayIn, CProxy.toProxy, proxyValue, portText, h3, hn]
  · simp only [relayIn, CProxy.toProxy, proxyValue]
    cases lastOf pUseTlsOf y.2 with
    | none => simp
    | some b => cases b <;> simp
  · simp [relayIn, CProxy.toProxy, proxyValue, List.any_eq_true]

/-- the request is relayed -/
theorem relay_taken (h : Serving penv files loadCa openDir txt ds c env) (sni : Option Bytes) (name : Bytes) (hneg : Negotiated env sni name)
    (x : Bytes × List SrvOpt) (hx : LastServer env.fnm ds name x) (ho : OptsFirst x.2)
    (req rest : Bytes) (i : Iri) (decoded : Bytes) (ha : Asks env req rest i decoded)
    (y : List ProxyMatch × List ProxyOpt) (hy : FirstBlock penv env.fnm x.2 i.schema name i.port y) (hs : Shown env files loadCa y) (bufsiz : Nat) :
    ∃ c0 : Client, c0.sent = [] ∧ c0.code = 0 ∧ WellFormed env c0 (hostIn penv files loadCa openDir c x) name req rest i decoded ∧
      step env bufsiz (.read (req ++ b%"\r\n" ++ rest)) (handshakeDone env sni {}) = .ok (relayTo env (parsed c0 rest i) (relayIn penv files loadCa y)) := by
  have hh : handshakeDone env sni {} = { ({} : Client) with domain := name, host := some (hostIn penv files loadCa openDir c x) } := by
    rw [handshake_name env sni name _ hneg, serving_bound h name x hx ho]
  refine ⟨{ ({} : Client) with domain := name, host := some (hostIn penv files loadCa openDir c x), inp := req ++ b%"\r\n" ++ rest }, rfl, rfl,
    ⟨⟨rfl, rfl, rfl, rfl, rfl, rfl, rfl, ha.line, ha.room⟩, ha.nonul, ha.parses, ha.decodes⟩, ?_⟩
  have hw : WellFormed env { ({} : Client) with domain := name, host := some (hostIn penv files loadCa openDir c x), inp := req ++ b%"\r\n" ++ rest }
      (hostIn penv files loadCa openDir c x) name req rest i decoded :=
    ⟨⟨rfl, rfl, rfl, rfl, rfl, rfl, rfl, ha.line, ha.room⟩, ha.nonul, ha.parses, ha.decodes⟩
  have hst : step env bufsiz (.read (req ++ b%"\r\n" ++ rest)) (handshakeDone env sni {}) =
      clientRead env { ({} : Client) with domain := name, host := some (hostIn penv files loadCa openDir c x), inp := req ++ b%"\r\n" ++ rest } := by
    rw [hh]; rfl
  rw [hst, clientRead_wellformed hw]
  have hp := (relayIs_iff _ _ _ _ _ _).1 (firstBlock_relay (files := files) (loadCa := loadCa) (openDir := openDir) (c := c) hy)
  have hm : ∀ q : Client, q.host = some (hostIn penv files loadCa openDir c x) → q.domain = name → clientProxy env q i = some (relayIn penv files loadCa y) := by
    intro q h1 h2
    simp only [clientProxy, h1, h2]
    exact hp
  generalize ({ ({} : Client) with domain := name, host := some (hostIn penv files loadCa openDir c x), inp := req ++ b%"\r\n" ++ rest } : Client) = c0 at hw
  have hm' := hm (parsed c0 rest i) hw.requested.host hw.requested.domain
  cases hca : (relayIn penv files loadCa y).reqca with
  | none => simp only [dispatch, applyReverseProxy, hm', hca]
  | some store =>
    obtain ⟨file, h1, h2⟩ := Option.map_eq_some_iff.1 (show (lastOf pRequireCaOf y.2).map (caIn files loadCa) = some store from hca)
    have := hs file h1
    rw [h2] at this
    simp only [dispatch, applyReverseProxy, hm', hca, checkCert_ok _ store this.1 this.2]

/-- **C116, in part.** A server process with the configuration of a file: the client names a server of the file, the last one so named, and
sends a request that a proxy block of that server, the first such, is for, showing the certificate the block asks for.  Then the upstream server of
the block's relay-to, and nobody else, is contacted; what it gets is the request, a single line naming the same resource, after the PROXY line if there is one;
at any moment a beginning of it, and all of it once the connection took as many bytes.  The client gets the reply of the upstream server, header and
body, unchanged.
(In part: the options of the server come before its locations (C70); no escapes before the query and no brackets in the request, otherwise false: C11;
replies whose header has no NUL and no code from 21 to 29, otherwise C31; the connection to upstream being refused is C116_refused.) -/
theorem C116_relayed_partial (h : Serving penv files loadCa openDir txt ds c env) (sni : Option Bytes) (name : Bytes) (hneg : Negotiated env sni name)
    (x : Bytes × List SrvOpt) (hx : LastServer env.fnm ds name x) (ho : OptsFirst x.2)
    (req rest : Bytes) (i : Iri) (decoded : Bytes) (ha : Asks env req rest i decoded)
    (hb : c%'[' ∉ req) (h37 : ∀ pre post, req = pre ++ c%'%' :: post → c%'?' ∈ pre)
    (y : List ProxyMatch × List ProxyOpt) (hy : FirstBlock penv env.fnm x.2 i.schema name i.port y) (hs : Shown env files loadCa y)
    (hup : ∀ p, RelayOf penv files loadCa y p → env.relayConnect p = true ∧ env.relayInit p = true) (bufsiz : Nat) :
    ∃ c1 p, step env bufsiz (.read (req ++ b%"\r\n" ++ rest)) (handshakeDone env sni {}) = .ok c1 ∧ RelayOf penv files loadCa y p ∧ c1.effs = [.relay p] ∧
      ∀ pre iribuf : Bytes, iribuf.length = 1027 → ∃ u line j, upEnqueue pre iribuf i { c := c1 } = some u ∧
        parseIri env.isAddr line = .ok j ∧ j.schema = i.schema ∧ j.host = i.host ∧ j.path = i.path ∧ j.query = i.query ∧ c%'\n' ∉ line ∧ c%'\r' ∉ line ∧
        j.port = [] ∧ line.length ≤ req.length + 1 ∧ (0 : UInt8) ∉ line ∧
        ∀ evs : List UpEv, ∃ u', upRun env evs u = .ok u' ∧ u'.wire ++ u'.out = pre ++ line ++ b%"\r\n" ∧
          (Relayed u' → (pre ++ line ++ b%"\r\n").length ≤ roomFor evs → u'.wire = pre ++ line ++ b%"\r\n") ∧
          (∀ D code text body, UpEv.writable .failed ∉ evs → (evs.filterMap UpMeans).foldl relayed ([], false) = (D, true) → Plain D →
            HasHeader D code text body → (code = 20 → u'.f.c.sent ++ u'.f.c.out = D) ∧ (code ≠ 20 → u'.f.c.sent ++ u'.f.c.out ++ body = D)) := by
  have hym : y ∈ x.2.filterMap proxyOf := by obtain ⟨b, a, e, _⟩ := hy; rw [e]; simp
  have hro := relayIn_of h hx hym
  obtain ⟨hc1, hc2⟩ := hup _ hro
  obtain ⟨c0, s0, s1, hw, hst⟩ := relay_taken h sni name hneg x hx ho req rest i decoded ha y hy hs bufsiz
  have hc : relayTo env (parsed c0 rest i) (relayIn penv files loadCa y) =
      { parsed c0 rest i with effs := (parsed c0 rest i).effs ++ [.relay (relayIn penv files loadCa y)], type := .proxy } := by
    simp [relayTo, hc1, hc2]
  refine ⟨_, relayIn penv files loadCa y, hst, hro, by rw [hc]; simp [parsed, hw.requested.effs], ?_⟩
  rw [hc]
  intro pre iribuf hl
  have hlen : req.length ≤ 1024 := by have := ha.room; simp at this; omega
  obtain ⟨m', j, e1, e2, e3, e4, e5, e6, e7, e8, e9, e10, e11⟩ := C11_relayed_request_partial env.isAddr req i ha.parses hlen hb h37 iribuf hl
  refine ⟨_, cstr m', j, by unfold upEnqueue; rw [e1], e2, e3, e4, e5, e6, e7, e8, e9, e10, e11, ?_⟩
  intro evs
  generalize hu : ({ f := { { c := { parsed c0 rest i with effs := (parsed c0 rest i).effs ++ [.relay (relayIn penv files loadCa y)], type := .proxy } : PClient } with phase := .relaying }, out := pre ++ (cstr m' ++ b%"\r\n") } : Up) = u
  have hen : upEnqueue pre iribuf i { c := { parsed c0 rest i with effs := (parsed c0 rest i).effs ++ [.relay (relayIn penv files loadCa y)], type := .proxy } } = some u := by
    unfold upEnqueue; rw [e1, ← hu]
  have hout : u.out = pre ++ cstr m' ++ b%"\r\n" := by rw [← hu]; simp
  obtain ⟨u', hr⟩ := upRun_total env evs u (by rw [← hu]; intro e; cases e)
  refine ⟨u', hr, ?_, ?_, ?_⟩
  · have := (upRun_way (env := env) u.out evs u u' ⟨by rw [← hu]; rfl, fun _ _ => by rw [← hu], fun _ => by rw [← hu]⟩ hr).split
    rw [this, hout]
  · intro k1 k2
    have := (C106_request_in_full env pre iribuf i _ evs u u' hen hr k1 (by rw [hout]; exact k2)).1
    rw [this, hout]
  · intro D code text body k1 k2 k3 k4
    obtain ⟨evs', q1, q2, q3⟩ := C106_reply_read env pre iribuf i _ evs u u' hen hr
    have : evs' = evs := sublist_same evs evs' q1 (fun a ha' => q2 a (fun e => k1 (e ▸ ha')))
    rw [this] at q3
    have hrel : Relaying { parsed c0 rest i with effs := (parsed c0 rest i).effs ++ [.relay (relayIn penv files loadCa y)], type := .proxy } :=
      ⟨rfl, s1, s0, hw.requested.out, hw.requested.isOpen⟩
    obtain ⟨f, r1, r2, r3⟩ := C31_relayed_partial env _ hrel _ D k2 k3 code text body k4
    have e : u'.f = f := by
      have : proxyRun env (evs.filterMap UpMeans) { c := { parsed c0 rest i with effs := (parsed c0 rest i).effs ++ [.relay (relayIn penv files loadCa y)], type := .proxy } } = .ok u'.f := q3
      rw [r1] at this
      cases this; rfl
    rw [e]
    exact ⟨r2, r3⟩

/-- **C116, in part.** A client that does not show what the block asks for gets 60 or 61, and the upstream server is not contacted.
(In part: as C116_relayed_partial; C17 for a negative result of the verification.) -/
theorem C116_certificate_partial (h : Serving penv files loadCa openDir txt ds c env) (sni : Option Bytes) (name : Bytes) (hneg : Negotiated env sni name)
    (x : Bytes × List SrvOpt) (hx : LastServer env.fnm ds name x) (ho : OptsFirst x.2)
    (req rest : Bytes) (i : Iri) (decoded : Bytes) (ha : Asks env req rest i decoded)
    (y : List ProxyMatch × List ProxyOpt) (hy : FirstBlock penv env.fnm x.2 i.schema name i.port y)
    (file : Bytes) (hca : lastOf pRequireCaOf y.2 = some file) (hs : ¬ Shown env files loadCa y) (bufsiz : Nat) :
    ∃ c1 code, step env bufsiz (.read (req ++ b%"\r\n" ++ rest)) (handshakeDone env sni {}) = .ok c1 ∧ OnlyReply code c1.effs ∧ c1.type = .done ∧
      ((env.certProvided = false ∧ code = 60 ∧ c1.out = b%"60 client certificate required\r\n") ∨
       (env.certProvided = true ∧ code = 61 ∧ c1.out = b%"61 certificate not authorised\r\n")) := by
  obtain ⟨c0, s0, hw, hst⟩ := serving_asked h hneg hx ho ha bufsiz
  have hr := firstBlock_relay (files := files) (loadCa := loadCa) (openDir := openDir) (c := c) hy
  have hc : (relayIn penv files loadCa y).reqca = some (caIn files loadCa file) := by
    show (lastOf pRequireCaOf y.2).map (caIn files loadCa) = _
    rw [hca]; rfl
  obtain ⟨k1, k2⟩ := C17_relay_partial hw _ _ hr hc
  cases hp : env.certProvided with
  | false =>
    obtain ⟨c', e1, e2, e3, e4⟩ := k1 hp
    exact ⟨c', 60, by rw [hst, e1], e3, e4, .inl ⟨rfl, rfl, e2⟩⟩
  | true =>
    have hv : env.verify (caIn files loadCa file) = 0 := by
      by_cases hv : env.verify (caIn files loadCa file) = 0
      · exact hv
      · exfalso
        apply hs
        intro f hf
        rw [hca] at hf
        cases hf
        exact ⟨hp, hv⟩
    obtain ⟨c', e1, e2, e3, e4⟩ := k2 hp hv
    exact ⟨c', 61, by rw [hst, e1], e3, e4, .inr ⟨rfl, rfl, e2⟩⟩

/-- **C116.** When the upstream server cannot be reached, or the connection to it not be set up, the client is told so; and gets nothing else. -/
theorem C116_refused (h : Serving penv files loadCa openDir txt ds c env) (sni : Option Bytes) (name : Bytes) (hneg : Negotiated env sni name)
    (x : Bytes × List SrvOpt) (hx : LastServer env.fnm ds name x) (ho : OptsFirst x.2)
    (req rest : Bytes) (i : Iri) (decoded : Bytes) (ha : Asks env req rest i decoded)
    (y : List ProxyMatch × List ProxyOpt) (hy : FirstBlock penv env.fnm x.2 i.schema name i.port y) (hs : Shown env files loadCa y)
    (hup : ∀ p, RelayOf penv files loadCa y p → ¬ (env.relayConnect p = true ∧ env.relayInit p = true)) (bufsiz : Nat) :
    ∃ c1, step env bufsiz (.read (req ++ b%"\r\n" ++ rest)) (handshakeDone env sni {}) = .ok c1 ∧ headerCodes c1.effs = [43] ∧
      ∀ evs, ∃ c', runEvents bufsiz evs c1 = .ok c' ∧ c'.sent ++ c'.out = b%"43 proxy error\r\n" := by
  have hym : y ∈ x.2.filterMap proxyOf := by obtain ⟨b, a, e, _⟩ := hy; rw [e]; simp
  have hnc := hup _ (relayIn_of h hx hym)
  obtain ⟨c0, s0, s1, hw, hst⟩ := relay_taken h sni name hneg x hx ho req rest i decoded ha y hy hs bufsiz
  generalize hcc : ({ parsed c0 rest i with effs := (parsed c0 rest i).effs ++ [.relay (relayIn penv files loadCa y)] } : Client) = cc
  have hc : relayTo env (parsed c0 rest i) (relayIn penv files loadCa y) = startReply env cc 43 b%"proxy error" := by
    rw [← hcc]
    unfold relayTo
    dsimp only
    by_cases h1 : env.relayConnect (relayIn penv files loadCa y) = true
    · have h2 : env.relayInit (relayIn penv files loadCa y) ≠ true := fun h2 => hnc ⟨h1, h2⟩
      simp [h1, h2]
    · simp [h1]
  have hsr := startReply_short env cc 43 b%"proxy error" (by decide) (by decide)
  have hrep := queueHeader_replied env cc 43 b%"proxy error" (intDec 43 ++ c%' ' :: b%"proxy error")
  rw [← hsr] at hrep
  have ht : (startReply env cc 43 b%"proxy error").type = .done := by rw [hrep.type]; rfl
  refine ⟨_, by rw [hst, hc], ?_, fun evs => ?_⟩
  · obtain ⟨e, h1, h2⟩ := hrep.effs
    rw [h1, ← hcc]
    simp only [parsed, hw.requested.effs, List.nil_append, List.singleton_append, headerCodes]
    obtain ⟨hdr, h3⟩ := h2
    rcases h3 with rfl | ⟨mt, rfl⟩ <;> rfl
  · obtain ⟨c', e, d1, _, _, d4, _⟩ := done_run bufsiz evs _ ht (by rw [hrep.rcode]; decide)
    refine ⟨c', d1, ?_⟩
    rw [d4, hrep.sent, hsr, ← hcc]
    simp [queueHeader, parsed, s0, hw.requested.out]

end

/-! ## A concrete case -/

/-- a configuration with two proxy blocks, one of them for another protocol, the other asking for a certificate -/
def exUpTxt : Bytes := b%"types {\n text/x-a a\n}\nserver \"h\" {\n cert \"/c\"\n key \"/k\"\n proxy proto \"titan\" {\n relay-to \"t\"\n }\n proxy {\n relay-to \"up\" port 1966\n use-tls off\n require client ca \"/ca\"\n }\n}\n"

def exUpBlock : List ProxyMatch × List ProxyOpt := ([], [.relayTo b%"up" (.num 1966), .useTls false, .requireCa b%"/ca"])

def exUpSrv : Bytes × List SrvOpt :=
  (b%"h", [.cert b%"/c", .key b%"/k", .proxy [.proto b%"titan"] [.relayTo b%"t" .none], .proxy exUpBlock.1 exUpBlock.2])

def exUpDs : List Directive := [.types [(b%"text/x-a", [b%"a"])], .server exUpSrv.1 exUpSrv.2]

def exUpC : CConf := (mainStart cfEnv (fun _ => none) exUpDs).getD confNew

/-- with or without a certificate from the CA, and with or without the upstream server -/
def exUpEnv (cert up : Bool) : Env :=
  { exDepEnv with
    certProvided := cert
    verify := fun s => if s = 7 then 1 else 0
    relayConnect := fun _ => up
    relayInit := fun _ => true
    hosts := exUpC.hosts.map (CHost.toVhost (caIn exDepFiles exDepCa) (dirIn exDepDir)) }

def exUpMs : List (Proc × CMsg CLoc (Bytes × Bytes) CProxy LAddr FcgiEp) := (mainConfigure exDepFiles (fun _ => true) (exUpC.toP false)).getD []
def exUpSt : Worker := ((recvAll exDepFiles exDepCa (fun _ => none) (fun _ => none) .server {} (forProc .server exUpMs) : Res Worker).val?).getD {}

theorem exUp_serving (cert up : Bool) : Serving cfEnv exDepFiles exDepCa exDepDir exUpTxt exUpDs exUpC (exUpEnv cert up) where
  resolves := cfEnv_ok.1
  says := ⟨80, (lexAll 80 (lexStart exUpTxt [])).dropLast,
    [.types [.names b%"text/x-a" [b%"a"]], .vhost (.server exUpSrv.1 exUpSrv.2)],
    by decide +kernel, pGrammar_iff.1 (by decide +kernel), rfl⟩
  runs := .inl ⟨fun _ => none, by decide +kernel⟩
  sent := ⟨false, fun _ => true, exUpMs, fun _ => none, fun _ => none, {}, exUpSt, by decide +kernel, by decide +kernel,
    ⟨⟨[⟨b%"text/x-a", b%"a"⟩], by decide +kernel, List.Perm.refl _, by simp [exUpEnv, exDepEnv]⟩, by cases cert <;> cases up <;> decide +kernel, by cases cert <;> cases up <;> decide +kernel⟩⟩

theorem exUp_named (cert up : Bool) : LastServer (exUpEnv cert up).fnm exUpDs b%"h" exUpSrv ∧ OptsFirst exUpSrv.2 ∧ Negotiated (exUpEnv cert up) (some b%"h") b%"h" := by
  refine ⟨⟨[], [], rfl, ⟨b%"h", .inl rfl, rfl⟩, by simp⟩, ⟨exUpSrv.2, [], by simp, by decide, by decide⟩, ?_⟩
  exact .inl ⟨b%"h", b%"h", rfl, rfl, by decide, rfl⟩

theorem exUp_block (cert up : Bool) : FirstBlock cfEnv (exUpEnv cert up).fnm exUpSrv.2 b%"gemini" b%"h" [] exUpBlock ∧ Shown (exUpEnv true up) exDepFiles exDepCa exUpBlock := by
  refine ⟨⟨[([.proto b%"titan"], [.relayTo b%"t" .none])], [], rfl, ⟨rfl, rfl, rfl⟩, ?_⟩, ?_⟩
  · intro z hz
    simp only [List.mem_singleton] at hz
    subst hz
    intro h
    have : (b%"titan" == b%"*" || b%"titan" == b%"gemini") = true := h.1
    revert this
    decide
  · intro file hf
    have : file = b%"/ca" := by
      have e : lastOf pRequireCaOf exUpBlock.2 = some b%"/ca" := by decide
      rw [e] at hf
      cases hf; rfl
    subst this
    exact ⟨rfl, by show (if caIn exDepFiles exDepCa b%"/ca" = 7 then (1 : Int) else 0) ≠ 0; decide⟩

/-- C116_relayed_partial applies: gemini://h/x.gmi -/
example (iribuf : Bytes) (hl : iribuf.length = 1027) (evs : List UpEv) : ∃ c1 p u line u',
    step (exUpEnv true true) 4096 (.read b%"gemini://h/x.gmi\r\n") (handshakeDone (exUpEnv true true) (some b%"h") {}) = .ok c1 ∧ c1.effs = [.relay p] ∧
      p.host = b%"up" ∧ upEnqueue [] iribuf (exIriPath b%"x.gmi") { c := c1 } = some u ∧ upRun (exUpEnv true true) evs u = .ok u' ∧ u'.wire ++ u'.out = [] ++ line ++ b%"\r\n" := by
  have hp : parseIri (exUpEnv true true).isAddr b%"gemini://h/x.gmi" = .ok (exIriPath b%"x.gmi") := by decide +kernel
  have ha : Asks (exUpEnv true true) b%"gemini://h/x.gmi" [] (exIriPath b%"x.gmi") b%"h" := ⟨noCrlf_of _ (by decide), by decide, by decide, hp, rfl⟩
  have h37 : ∀ pre post, b%"gemini://h/x.gmi" = pre ++ c%'%' :: post → c%'?' ∈ pre := by
    intro pre post e
    have : c%'%' ∈ b%"gemini://h/x.gmi" := by rw [e]; simp
    exact absurd this (by decide)
  obtain ⟨c1, p, h1, h2, h3, h4⟩ := C116_relayed_partial (exUp_serving true true) (some b%"h") b%"h" (exUp_named true true).2.2 exUpSrv (exUp_named true true).1 (exUp_named true true).2.1 _ _ _ _ ha
    (by decide) h37 exUpBlock (exUp_block true true).1 (exUp_block true true).2 (fun _ _ => ⟨rfl, rfl⟩) 4096
  obtain ⟨u, line, j, k1, _, _, _, _, _, _, _, _, _, _, k9⟩ := h4 [] iribuf hl
  obtain ⟨u', r1, r2, _⟩ := k9 evs
  obtain ⟨pa, n, q1, _⟩ := h2.target
  have e : lastOf pRelayOf exUpBlock.2 = some (b%"up", .num 1966) := by decide
  rw [e] at q1
  exact ⟨c1, p, u, line, u', h1, h3, by simp only [Option.some.injEq, Prod.mk.injEq] at q1; exact q1.1.symm, k1, r1, r2⟩

/-- what the upstream server of the example gets and what the client gets from its reply -/
example : (((step (exUpEnv true true) 4096 (.read b%"gemini://h/x.gmi\r\n") (handshakeDone (exUpEnv true true) (some b%"h") {})).val?.bind fun c1 =>
    (upEnqueue [] (List.replicate 1027 0) (exIriPath b%"x.gmi") { c := c1 }).bind fun u =>
    (upRun (exUpEnv true true) [.writable (.got 9), .writable .want, .writable (.got 99), .readable (.got b%"20 text/"), .readable (.got b%"gemini\r\n# hi\n"), .readable (.got [])] u).val?).map
      fun u => (u.wire, u.f.c.sent ++ u.f.c.out)) = some (b%"gemini://h/x.gmi\r\n", b%"20 text/gemini\r\n# hi\n") := by decide +kernel

theorem exUp_asks (cert up : Bool) : Asks (exUpEnv cert up) b%"gemini://h/x.gmi" [] (exIriPath b%"x.gmi") b%"h" :=
  ⟨noCrlf_of _ (by decide), by decide, by decide, by
    have : parseIri (fun _ => false) b%"gemini://h/x.gmi" = .ok (exIriPath b%"x.gmi") := by decide +kernel
    exact this, rfl⟩

/-- C116_refused and C116_certificate_partial apply, without the upstream server and without the certificate -/
example : (∃ c1, step (exUpEnv true false) 4096 (.read (b%"gemini://h/x.gmi" ++ b%"\r\n" ++ [])) (handshakeDone (exUpEnv true false) (some b%"h") {}) = .ok c1 ∧ headerCodes c1.effs = [43]) ∧
    ∃ c1, step (exUpEnv false true) 4096 (.read (b%"gemini://h/x.gmi" ++ b%"\r\n" ++ [])) (handshakeDone (exUpEnv false true) (some b%"h") {}) = .ok c1 ∧ OnlyReply 60 c1.effs := by
  constructor
  · obtain ⟨c1, h1, h2, _⟩ := C116_refused (exUp_serving true false) (some b%"h") b%"h" (exUp_named true false).2.2 exUpSrv (exUp_named true false).1
      (exUp_named true false).2.1 _ _ _ _ (exUp_asks true false) exUpBlock (exUp_block true false).1 (exUp_block true false).2
      (fun _ _ h => by have := h.1; simp [exUpEnv] at this) 4096
    exact ⟨c1, h1, h2⟩
  · obtain ⟨c1, code, h1, h2, _, h4⟩ := C116_certificate_partial (exUp_serving false true) (some b%"h") b%"h" (exUp_named false true).2.2 exUpSrv (exUp_named false true).1
      (exUp_named false true).2.1 _ _ _ _ (exUp_asks false true) exUpBlock (exUp_block false true).1 b%"/ca" (by decide)
      (fun h => by have := (h b%"/ca" (by decide)).1; simp [exUpEnv] at this) 4096
    rcases h4 with ⟨_, rfl, _⟩ | ⟨h, _⟩
    · exact ⟨c1, h1, h2⟩
    · simp [exUpEnv] at h

end Gmid.Props

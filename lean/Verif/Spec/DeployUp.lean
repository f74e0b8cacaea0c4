import Verif.Spec.Deploy

/-!
# The proxy blocks of the file, as rules for requests
-/

set_option autoImplicit false

namespace Gmid.Spec

/-- what a rule of the block says, or what goes without saying -/
def said (s : Option Bytes) (dflt : Bytes) : Bytes := if s.getD [] = [] then dflt else s.getD []

/-- the proxy block is for requests with this scheme, to a server with this name, with this text as the port (as C60, the text, not the number) -/
def BlockFor (penv : PEnv) (fnm : Bytes → Bytes → Bool) (y : List ProxyMatch × List ProxyOpt) (schema name port : Bytes) : Prop :=
  let m (pat s : Bytes) : Prop := fnm pat (if s.head? = some c%'/' then s.tail else s) = true
  m (said (lastOf protoOf y.1) b%"gemini") schema ∧
  m (said ((lastOf forHostOf y.1).map (·.1)) b%"*") name ∧
  m (said ((lastOf forHostOf y.1).bind fun h => (portValue penv h.2).map intDec) b%"*") port

/-- the first proxy block of the server that is for the request -/
def FirstBlock (penv : PEnv) (fnm : Bytes → Bytes → Bool) (body : List SrvOpt) (schema name port : Bytes)
    (y : List ProxyMatch × List ProxyOpt) : Prop :=
  ∃ before after, body.filterMap proxyOf = before ++ y :: after ∧ BlockFor penv fnm y schema name port ∧
    ∀ z ∈ before, ¬ BlockFor penv fnm z schema name port

/-- the relay is the one the block describes -/
structure RelayOf (penv : PEnv) (files : Bytes → Option Bytes) (loadCa : Bytes → Option Nat) (y : List ProxyMatch × List ProxyOpt) (p : Proxy) : Prop where
  /-- where to: the host and the port of relay-to -/
  target : ∃ pa n, lastOf pRelayOf y.2 = some (p.host, pa) ∧ p.host ≠ [] ∧ portValue penv pa = some n ∧ p.port = intDec n
  /-- with TLS unless it says not to -/
  tls : p.notls = true ↔ lastOf pUseTlsOf y.2 = some false
  /-- for clients with a certificate from this CA only -/
  ca : p.reqca = (lastOf pRequireCaOf y.2).map (caIn files loadCa)
  /-- with the PROXY line if it says so -/
  line : p.proxy = true ↔ ProxyOpt.proxyV1 ∈ y.2

/-- what the client has to show for the block was shown -/
def Shown (env : Env) (files : Bytes → Option Bytes) (loadCa : Bytes → Option Nat) (y : List ProxyMatch × List ProxyOpt) : Prop :=
  ∀ file, lastOf pRequireCaOf y.2 = some file → env.certProvided = true ∧ env.verify (caIn files loadCa file) ≠ 0

end Gmid.Spec

import Verif.Model.Upstream
import Verif.Model.TlsName
import Verif.Model.Protocols
import Verif.Model.Actions

/-!
# The TLS connection to the upstream server: how it is set up, and its handshake

proxy_setup_tls and proxy_handshake of proxy.c with the client side of libtls (compat/libtls/tls_client.c, tls.c, tls_config.c).  What
OpenSSL's SSL_connect does is an input; that it does not complete a handshake with a version that was turned off, or with a certificate the
verification callback refused, is modelled by `sslConnect`.
-/

set_option autoImplicit false

namespace Gmid

/-- struct tls_config (compat/libtls/tls_internal.h), as much of it as proxy.c sets.  The values are those of tls_config_new and
tls_config_verify (compat/libtls/tls_config.c:92-140 and 786-792). -/
structure ClientTls where
  protocols : UInt32 := protosDefault
  verifyCert : Bool := true
  verifyName : Bool := true
  keypair : Option (Bytes × Bytes) := none
  deriving Repr, DecidableEq

/-- struct tls of a client: its configuration, the name it checks, and the one it asks for in the handshake (SNI) -/
structure TlsClient where
  conf : ClientTls
  servername : Bytes
  sni : Option Bytes
  deriving Repr, DecidableEq

/-- compat/libtls/tls_client.c:293-297: the last dot is dropped -/
def stripDot (s : Bytes) : Bytes := if s.getLast? = some c%'.' then s.dropLast else s

/-- OpenSSL's SSL_set_tlsext_host_name: it refuses an empty name and one of more than 255 bytes (TLSEXT_MAXLEN_host_name) -/
def sslHostName (s : Bytes) : Option Bytes := if s.length = 0 ∨ s.length > 255 then none else some s

/-- compat/libtls/tls_client.c:273-365, tls_connect_common; `none` is -1.  `inet` is inet_pton(3), `loads` whether the key pair can be loaded
(tls_configure_ssl_keypair).  Allocation failures are not modelled, nor sessions (session_fd is -1) and OCSP. -/
def tlsConnect (inet : Bytes → Option Bytes) (loads : Bytes × Bytes → Bool) (conf : ClientTls) (hn : Bytes) : Option TlsClient :=
  let name := stripDot hn
  if conf.keypair.any (fun k => !loads k) then none
  else if (inet name).isSome then some { conf := conf, servername := name, sni := none }
  else
    match sslHostName name with
    | none => none
    | some s => some { conf := conf, servername := name, sni := some s }

/-- proxy.c:335-352: the configuration; `pair` is the certificate and the key, loaded from the files of the block -/
def upTlsConf (p : CProxy) (pair : Option (Bytes × Bytes)) : ClientTls :=
  let conf : ClientTls := {}
  let conf := if p.noverifyname then { conf with verifyName := false } else conf
  let conf := { conf with verifyCert := false }
  let conf := { conf with protocols := UInt32.ofNat p.protocols }
  match pair with
  | some k => { conf with keypair := some k }
  | none => conf

/-- proxy.c:328-377, proxy_setup_tls; `none` is -1 -/
def proxySetupTls (inet : Bytes → Option Bytes) (loads : Bytes × Bytes → Bool) (p : CProxy) (pair : Option (Bytes × Bytes)) : Option TlsClient :=
  let hn := if p.sni = [] then p.host else p.sni
  tlsConnect inet loads (upTlsConf p pair) hn

/-- what SSL_connect comes to: it wants to read or to write, it fails, or the peer gets to the end of the handshake with a version and a
certificate, which a known authority vouches for or not -/
inductive SslRes where
  | wantIn
  | wantOut
  | failed
  | done (v : TlsVer) (cert : Option CertNames) (trusted : Bool)
  deriving Repr, DecidableEq

/-- OpenSSL with what tls_configure_ssl (tls.c:511-528, `sslNo`) and tls_ssl_cert_verify_cb (tls.c:561-583) tell it -/
def sslConnect (conf : ClientTls) : SslRes → SslRes
  | .done v cert trusted =>
    if sslNo conf.protocols v then .failed
    else if conf.verifyCert && !trusted then .failed
    else .done v cert trusted
  | r => r

/-- the values of tls_handshake(3) -/
inductive HsRes where
  | wantIn
  | wantOut
  | failed
  | complete
  deriving Repr, DecidableEq

/-- compat/libtls/tls_client.c:428-488, tls_handshake_client, on a context that is connected -/
def tlsHandshakeClient (inet : Bytes → Option Bytes) (t : TlsClient) (r : SslRes) : HsRes :=
  match sslConnect t.conf r with
  | .wantIn => .wantIn
  | .wantOut => .wantOut
  | .failed => .failed
  | .done _ cert _ =>
    if t.conf.verifyName then
      match cert with
      | none => .failed
      | some c =>
        match tlsCheckName inet c t.servername with
        | none => .failed
        | some false => .failed
        | some true => .complete
    else .complete

/-- a relayed request: in the handshake, waiting for the socket to be readable or writable (or both, at first); given up; or past it -/
inductive UpLife where
  | shaking (rd wr : Bool) (f : PClient)
  | lost (f : PClient)
  | up (u : Up)
  deriving Repr

/-- what can happen to it: the handshake times out; the socket is ready and SSL_connect comes to this; the client takes some bytes; or an
event of the connection after the handshake -/
inductive UpLifeEv where
  | timeout
  | ready (r : SslRes)
  | client (n : Nat)
  | later (ev : UpEv)
  deriving Repr, DecidableEq

section
variable (env : Env) (inet : Bytes → Option Bytes) (i : Iri) (iribuf : Bytes)

/-- proxy.c:294-303 (proxy_handshake, once complete) and proxy_enqueue_req -/
def upGo (f : PClient) : Res UpLife :=
  match upEnqueue [] iribuf i f with
  | none => .ub
  | some u => .ok (.up u)

/-- proxy.c:264-297, proxy_handshake: `ready` -/
def proxyHandshake (t : TlsClient) (r : SslRes) (f : PClient) : Res UpLife :=
  match tlsHandshakeClient inet t r with
  | .wantIn => .ok (.shaking true false f)
  | .wantOut => .ok (.shaking false true f)
  | .failed => .ok (.lost { f with phase := .over, c := startReply env f.c 43 b%"handshake failed" })
  | .complete => upGo i iribuf f

/-- the client's side goes on -/
def UpLife.flush (k : PClient → UpLife) (n : Nat) (f : PClient) : Res UpLife :=
  match proxyStep env (.flush n) f with
  | .ok f => .ok (k f)
  | .err => .err
  | .ub => .ub

/-- one event -/
def upLifeStep (t : TlsClient) (ev : UpLifeEv) (s : UpLife) : Res UpLife :=
  match s, ev with
  | .shaking rd wr f, .timeout =>
    if f.c.closed then .ok (.shaking rd wr f)
    else .ok (.lost { f with phase := .over, c := startReply env f.c 43 b%"timeout" })
  | .shaking rd wr f, .ready r => if f.c.closed then .ok (.shaking rd wr f) else proxyHandshake env inet i iribuf t r f
  | .shaking rd wr f, .client n => UpLife.flush env (.shaking rd wr) n f
  | .lost f, .client n => UpLife.flush env .lost n f
  | .up u, .later ev =>
    match upStep env ev u with
    | .ok u => .ok (.up u)
    | .err => .err
    | .ub => .ub
  | s, _ => .ok s

/-- a history -/
def upLifeRun (t : TlsClient) : List UpLifeEv → UpLife → Res UpLife
  | [], s => .ok s
  | ev :: r, s =>
    match upLifeStep env inet i iribuf t ev s with
    | .ok s => upLifeRun t r s
    | .err => .err
    | .ub => .ub

/-- proxy.c:384-397, proxy_init, and what happens then; `pre` is the PROXY line of a connection without TLS, `none` is -1 -/
def relayLife (loads : Bytes × Bytes → Bool) (p : CProxy) (pair : Option (Bytes × Bytes)) (pre : Bytes) (f : PClient) (evs : List UpLifeEv) :
    Option (Res UpLife) :=
  if p.notls then
    match upEnqueue pre iribuf i f with
    | none => some .ub
    | some u => some (upLifeRun env inet i iribuf { conf := {}, servername := [], sni := none } evs (.up u))
  else
    match proxySetupTls inet loads p pair with
    | none => none
    | some t => some (upLifeRun env inet i iribuf t evs (.shaking true true { f with phase := .connecting }))

end

/-- what was handed to the connection with the upstream server -/
def UpLife.carried : UpLife → Bytes
  | .up u => u.wire
  | _ => []

/-- the client -/
def UpLife.client : UpLife → Client
  | .up u => u.f.c
  | .shaking _ _ f => f.c
  | .lost f => f.c

end Gmid

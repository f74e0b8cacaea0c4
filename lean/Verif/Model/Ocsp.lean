import Verif.Model.TlsName
import Verif.Model.Config

/-!
# The OCSP responses of the servers: from the configuration to the handshake

server.c:1464-1525, compat/libtls/tls_config.c, tls_server.c and tls_ocsp.c.  A certificate is the contents of its file, and `dec` says what names are in it
(C97).  (Simplification: there is memory to configure the server, the key pairs can be loaded, and the keys, which play no part, are left out.)
-/

set_option autoImplicit false

namespace Gmid

/-- struct tls_keypair (tls_internal.h), without the key; `none` is NULL -/
structure OPair where
  cert : Option Bytes := none
  staple : Option Bytes := none
  deriving Repr, DecidableEq

/-- struct tls_config: its key pair, there from the start (tls_config.c:92-151), and those after it -/
structure OTls where
  first : OPair := {}
  rest : List OPair := []
  deriving Repr, DecidableEq

/-- struct vhost in a server process, as far as setup_tls looks at it -/
structure OHost where
  addrs : List AddrInfo
  cert : Bytes
  ocsp : Option Bytes
  deriving Repr, DecidableEq

/-- compat/libtls/tls_util.c:44-56, tls_set_mem: what was there is freed; NULL when there is nothing to copy -/
def setMemO (_old src : Option Bytes) : Option Bytes := src

/-- compat/libtls/tls_config.c:641-655 and 681-690, tls_config_set_keypair_ocsp_mem -/
def setOPair (t : OTls) (cert : Bytes) (ocsp : Option Bytes) : OTls :=
  let p := { t.first with cert := setMemO t.first.cert (some cert) }
  { t with first := if ocsp.isSome then { p with staple := setMemO p.staple ocsp } else p }

/-- compat/libtls/tls_config.c:184-194, 370-396 and 414-423, tls_config_add_keypair_ocsp_mem -/
def addOPair (t : OTls) (cert : Bytes) (ocsp : Option Bytes) : OTls :=
  let p : OPair := { cert := setMemO none (some cert) }
  { t with rest := t.rest ++ [if ocsp.isSome then { p with staple := setMemO p.staple ocsp } else p] }

/-- server.c:1472-1492, the inner loop of add_matching_kps -/
def addOPairsOf (addr : AddrInfo) (h : OHost) : List AddrInfo → OTls × Bool → OTls × Bool
  | [], s => s
  | va :: r, (t, any) =>
    if !matchAddr addr va then addOPairsOf addr h r (t, any)
    else if !any then addOPairsOf addr h r (setOPair t h.cert h.ocsp, true)
    else addOPairsOf addr h r (addOPair t h.cert h.ocsp, true)

/-- server.c:1464-1494, add_matching_kps -/
def addOHosts (addr : AddrInfo) : List OHost → OTls × Bool → OTls × Bool
  | [], s => s
  | h :: r, s => addOHosts addr r (addOPairsOf addr h h.addrs s)

/-- server.c:1496-1525, setup_tls, for one address: a new struct tls_config -/
def setupOTls (addr : AddrInfo) (hosts : List OHost) : OTls := (addOHosts addr hosts ({}, false)).1

/-- struct tls_sni_ctx: its key pair, the certificate in its SSL_CTX, and the one names are looked for in -/
structure SniCtx where
  pair : OPair
  shown : Option Bytes
  sslCert : Bytes
  deriving Repr, DecidableEq

/-- compat/libtls/tls_server.c:311-346, tls_configure_server_sni -/
def configureSni (t : OTls) : List SniCtx := t.rest.map fun kp => { pair := kp, shown := kp.cert, sslCert := kp.cert.getD [] }

/-- the context of a connection: conn_ctx->keypair, the certificate in the SSL_CTX that ssl_conn uses, and conn_ctx->servername -/
structure OConn where
  pair : OPair
  shown : Option Bytes
  servername : Option Bytes := none
  deriving Repr, DecidableEq

/-- compat/libtls/tls_server.c:50-67 and 362-394, tls_server_conn and tls_accept_common; ctx->ssl_ctx has the certificate of config->keypair (348-353) -/
def acceptO (t : OTls) : OConn := { pair := t.first, shown := t.first.cert }

/-- what a callback of OpenSSL returns: SSL_TLSEXT_ERR_OK, _NOACK, or _ALERT_FATAL -/
inductive SniAck where
  | ok
  | noack
  | alert
  deriving Repr, DecidableEq

/-- compat/libtls/tls_server.c:119-128, the loop of tls_servername_cb; the outer `none` is an error, the inner one: no match -/
def sniCtxLoop (dec : Bytes → CertNames) (inet : Bytes → Option Bytes) (name : Bytes) : List SniCtx → Option (Option SniCtx)
  | [] => some none
  | s :: r =>
    match tlsCheckName inet (dec s.sslCert) name with
    | none => none
    | some true => some (some s)
    | some false => sniCtxLoop dec inet name r

/-- compat/libtls/tls_server.c:82-141, tls_servername_cb -/
def servernameCb (dec : Bytes → CertNames) (inet : Bytes → Option Bytes) (snis : List SniCtx) (c : OConn) (sni : Option Bytes) : OConn × SniAck :=
  match sni with
  | none => (c, .noack)
  | some name =>
    if (inet name).isSome then (c, .noack)
    else
      let c := { c with servername := some name }
      match sniCtxLoop dec inet name snis with
      | none => (c, .alert)
      | some (some s) => ({ c with pair := s.pair, shown := s.shown }, .ok)
      | some none => (c, .ok)

/-- the callback for each ClientHello of a handshake: there is a second one after a HelloRetryRequest.  `none`: a fatal alert -/
def hellosO (dec : Bytes → CertNames) (inet : Bytes → Option Bytes) (snis : List SniCtx) : OConn → List (Option Bytes) → Option OConn
  | c, [] => some c
  | c, h :: r =>
    match servernameCb dec inet snis c h with
    | (_, .alert) => none
    | (c, _) => hellosO dec inet snis c r

/-- what tls_ocsp_stapling_cb returns, and with `ok` what it has given to OpenSSL to send -/
inductive StapleRes where
  | ok (d : Bytes)
  | noack
  | alert
  deriving Repr, DecidableEq

/-- compat/libtls/tls_ocsp.c:344-374, tls_ocsp_stapling_cb; `mem`: malloc(3) succeeds; `set`: SSL_set_tlsext_status_ocsp_resp returns 1 -/
def staplingCb (mem set : Bool) (c : OConn) : StapleRes :=
  match c.pair.staple with
  | none => .noack
  | some d =>
    if d.length = 0 then .noack
    else if !mem then .alert
    else if !set then .alert
    else .ok d

/-- a handshake with a client that asks for the status of the certificate: the connection after it -/
def handshakeO (dec : Bytes → CertNames) (inet : Bytes → Option Bytes) (t : OTls) (hellos : List (Option Bytes)) : Option OConn :=
  hellosO dec inet (configureSni t) (acceptO t) hellos

variable {L E P C : Type}

/-- the servers in the configuration of a server process (gmid.h:209-241) -/
def oHostOf (h : WHost L E P AddrInfo C) : OHost := { addrs := h.addrs, cert := h.cert.getD [], ocsp := h.ocsp }

end Gmid

import Verif.Model.Clients
import Verif.Model.Close
import Verif.Model.TlsIo

/-!
# libtls: reading, writing and closing a connection (compat/libtls/tls.c:729-927)

What OpenSSL's calls come to is an input.  The contexts are those of connections (TLS_CLIENT or TLS_SERVER_CONN).  Left out: `ctx->socket` is -1
(only tls_connect_servername sets it, tls_client.c:64-164, which nothing here uses), so that tls_close closes no descriptor; buffers longer than INT_MAX;
the memory for the messages.
-/

set_option autoImplicit false

namespace Gmid

/-- what SSL_get_error says -/
inductive SslErr where
  | none | zeroReturn | wantRead | wantWrite | syscall | ssl
  | other (n : Int)
  deriving Repr, DecidableEq

/-- a call that returned `ret`, not more than 0: what SSL_get_error says, the text of the error in OpenSSL's queue (ERR_peek_error), if there is one,
and strerror(errno) -/
structure SslFail where
  ret : Int
  err : SslErr
  queue : Option Bytes := Option.none
  errno : Bytes := []
  deriving Repr, DecidableEq

/-- the fields of struct tls: TLS_HANDSHAKE_COMPLETE, TLS_EOF_NO_CLOSE_NOTIFY, TLS_SSL_NEEDS_SHUTDOWN and the message -/
structure LibConn where
  complete : Bool := false
  eof : Bool := false
  needsShut : Bool := false
  msg : Option Bytes := none
  deriving Repr, DecidableEq

/-- 0, TLS_WANT_POLLIN, TLS_WANT_POLLOUT, -1 -/
inductive LibRet where
  | zero | pollIn | pollOut | fail
  deriving Repr, DecidableEq

/-- tls.c:200-214, tls_set_ssl_errorx (tls.c:83-113) -/
def LibConn.sslMsg (c : LibConn) (m : Bytes) : LibConn := if c.msg.isSome then c else { c with msg := some m }

/-- tls.c:728-775, tls_ssl_error -/
def tlsSslError (c : LibConn) (f : SslFail) (pre : Bytes) : LibConn × LibRet :=
  match f.err with
  | .none => (c, .zero)
  | .zeroReturn => (c, .zero)
  | .wantRead => (c, .pollIn)
  | .wantWrite => (c, .pollOut)
  | .syscall =>
    match f.queue with
    | some q => (c.sslMsg (pre ++ b%" failed: " ++ q), .fail)
    | none =>
      if f.ret = 0 then
        if c.complete then ({ c with eof := true }, .zero)
        else (c.sslMsg (pre ++ b%" failed: unexpected EOF"), .fail)
      else if f.ret = -1 then (c.sslMsg (pre ++ b%" failed: " ++ f.errno), .fail)
      else (c.sslMsg (pre ++ b%" failed: unknown error"), .fail)
  | .ssl =>
    match f.queue with
    | some q => (c.sslMsg (pre ++ b%" failed: " ++ q), .fail)
    | none => (c.sslMsg (pre ++ b%" failed: unknown error"), .fail)
  | .other n => (c.sslMsg (pre ++ b%" failed (" ++ intDec n ++ b%")"), .fail)

/-- what the callers make of it (proxy.c:55-71, 106-119, server.c:875-891, 932-945, gg.c:147-178): TLS_WANT_POLLIN and TLS_WANT_POLLOUT alike -/
def LibRet.res {α : Type} (zero : α) : LibRet → TlsRes α
  | .zero => .got zero
  | .pollIn => .want
  | .pollOut => .want
  | .fail => .failed

/-- what a call of SSL_read comes to: some bytes, at least one, or not -/
inductive SslRd where
  | data (b : UInt8) (r : Bytes)
  | no (f : SslFail)
  deriving Repr, DecidableEq

/-- tls.c:814-842, tls_read, when the handshake is complete (tls.c:822-825 is for the others) -/
def tlsRead (c : LibConn) : SslRd → LibConn × TlsRes Bytes
  | .data b r => ({ c with msg := none }, .got (b :: r))
  | .no f =>
    let r := tlsSslError { c with msg := none } f b%"read"
    (r.1, r.2.res [])

/-- what a call of SSL_write comes to: it has taken n bytes, at least one, or not -/
inductive SslWr where
  | took (n : Nat)
  | no (f : SslFail)
  deriving Repr, DecidableEq

/-- tls.c:845-873, tls_write -/
def tlsWrite (c : LibConn) : SslWr → LibConn × TlsRes Nat
  | .took n => ({ c with msg := none }, .got n)
  | .no f =>
    let r := tlsSslError { c with msg := none } f b%"write"
    (r.1, r.2.res 0)

/-- tls.c:905-909, the end of tls_close; ctx->socket is -1 -/
def tlsCloseEnd (c : LibConn) (rv : LibRet) : LibConn × LibRet :=
  if c.eof then ({ c with msg := some b%"EOF without close notify" }, .fail) else (c, rv)

/-- tls.c:876-927, tls_close; `r` is what SSL_shutdown comes to, if it is called: it has failed if it returned less than 0 -/
def tlsClose (c : LibConn) (r : SslFail) : LibConn × LibRet :=
  let c := { c with msg := none }
  if c.needsShut then
    if r.ret < 0 then
      match tlsSslError c r b%"shutdown" with
      | (c, .pollIn) => (c, .pollIn)
      | (c, .pollOut) => (c, .pollOut)
      | (c, rv) => tlsCloseEnd { c with needsShut := false } rv
    else tlsCloseEnd { c with needsShut := false } .zero
  else tlsCloseEnd c .zero

/-- tls.c:778-811 with tls_server.c:448-471 and tls_client.c:428-488, tls_handshake; `r` is what SSL_accept or SSL_connect comes to (`none`: 1),
`bad` the message if the name of the peer is not the one wanted (tls_client.c:449-464; tls_conninfo_populate does not fail) -/
def tlsHandshake (c : LibConn) (r : Option SslFail) (bad : Option Bytes) : LibConn × LibRet :=
  if c.complete then ({ c with msg := some b%"handshake already completed" }, .fail)
  else
    let c := { c with msg := none, needsShut := true }
    match r with
    | some f => tlsSslError c f b%"handshake"
    | none =>
      match bad with
      | none => ({ c with complete := true }, .zero)
      | some m => ({ c with msg := some m }, .fail)

/-- a call of libtls on a connection -/
inductive LibOp where
  | read (r : SslRd)
  | write (r : SslWr)
  | close (r : SslFail)
  deriving Repr, DecidableEq

/-- the context after the call -/
def LibConn.op (c : LibConn) : LibOp → LibConn
  | .read r => (tlsRead c r).1
  | .write r => (tlsWrite c r).1
  | .close r => (tlsClose c r).1

/-- the reads of gg (gg.c:165-187, dorep): as Model/Clients.lean takes them, with the context at the end; `none`: the connection has not come
to an end.  What SSL_read found and the caller has no room for stays for the next call.  An end is found again by the calls after it. -/
def libReads : LibConn → List SslRd → Option (List TRead × LibConn)
  | _, [] => none
  | c, r :: rs =>
    match tlsRead c r with
    | (c, .got []) => some ([], c)
    | (c, .failed) => some ([.fail], c)
    | (c, .want) => (libReads c rs).map fun x => (.want :: x.1, x.2)
    | (c, .got (b :: t)) => (libReads c rs).map fun x => (.data b t :: x.1, x.2)

/-- proxy.c:34-89, proxy_tls_readcb: the reads of a relayed reply, as the events of Model/Proxy.lean; proxy_error is called for an end and for a
failure alike, and there are no reads after that -/
def upEvs : LibConn → List SslRd → List PEv
  | _, [] => []
  | c, r :: rs =>
    match tlsRead c r with
    | (_, .got []) => [.eof]
    | (_, .failed) => [.eof]
    | (c, .want) => upEvs c rs
    | (c, .got (b :: t)) => .data (b :: t) :: upEvs c rs

/-- gg.c:322-334, titan.c:383-404: the closing, and what warnx says; `none`: it does not come to an end -/
def libCloses (c : LibConn) : List SslFail → Option (Option Bytes)
  | [] => none
  | r :: rs =>
    match tlsClose c r with
    | (c, .pollIn) => libCloses c rs
    | (c, .pollOut) => libCloses c rs
    | (c, .fail) => some (some (b%"tls_close: " ++ c.msg.getD []))
    | (_, .zero) => some none

/-- server.c:1212-1219, 1252-1259: what the server makes of tls_close -/
def LibRet.closes : LibRet → TlsClose
  | .pollIn => .again
  | .pollOut => .again
  | _ => .done

end Gmid

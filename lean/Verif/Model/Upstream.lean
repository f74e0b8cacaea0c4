import Verif.Model.Proxy
import Verif.Model.Iri
import Verif.Model.TlsIo

/-!
# The connection to the upstream server of a relayed request: its events and what is written to it

The bufferevent `proxybev` of proxy.c with the pending state of its two events; what tls_read and tls_write return is an input.  Without TLS
libevent's own callbacks are used: they do the same with read(2) and write(2), and are modelled by the same function.
-/

set_option autoImplicit false

namespace Gmid

/-- the relayed request: `out` is the output buffer of proxybev, `wire` what was handed to TLS (or written, without TLS) -/
structure Up where
  f : PClient
  out : Bytes
  wire : Bytes := []
  rd : Bool := true
  wr : Bool := true
  deriving Repr

/-- proxy.c:228-262, proxy_enqueue_req: `pre` is the PROXY line, if the relay has one and does without TLS (else it is empty).  `iribuf` has
GEMINI_URL_LEN, 1027, bytes and is not initialised; `none` is undefined behaviour.  Both events are enabled. -/
def upEnqueue (pre : Bytes) (iribuf : Bytes) (i : Iri) (f : PClient) : Option Up :=
  match serializeIri i iribuf 1027 with
  | none => none
  | some (m, _) => some { f := { f with phase := .relaying }, out := pre ++ (cstr m ++ b%"\r\n") }

/-- what can happen: the two events of the upstream socket, or the client's connection accepting `n` bytes -/
inductive UpEv where
  | readable (r : TlsRes Bytes)
  | writable (r : TlsRes Nat)
  | client (n : Nat)
  deriving Repr, DecidableEq

section
variable (env : Env)

/-- proxy_read or proxy_error changed the rest -/
def Up.with (u : Up) (r : Res PClient) : Res Up :=
  match r with
  | .ok f => .ok { u with f := f }
  | .err => .err
  | .ub => .ub

/-- proxy.c:35-89, proxy_tls_readcb; the watermarks are 0 -/
def upReadable (r : TlsRes Bytes) (u : Up) : Res Up :=
  let u := { u with rd := false }
  match r with
  | .want => .ok { u with rd := true }
  | .failed => u.with (proxyError env u.f)
  | .got [] => u.with (proxyError env u.f)
  | .got data => { u with rd := true }.with (proxyRead env u.f data)

/-- proxy.c:91-132, proxy_tls_writecb, with proxy_write (proxy.c:189-197), which disables writing when all was written -/
def upWritable (r : TlsRes Nat) (u : Up) : Res Up :=
  let u := { u with wr := false }
  if u.out = [] then .ok u
  else
    match r with
    | .want => .ok { u with wr := true }
    | .failed => u.with (proxyError env u.f)
    | .got n =>
      let u := { u with wire := u.wire ++ u.out.take n, out := u.out.drop n }
      if u.out = [] then .ok { u with wr := false } else .ok { u with wr := true }

/-- one event: those of the upstream socket are reported while they are pending and proxybev exists (proxy_error frees it, and so does
client_close) -/
def upStep (ev : UpEv) (u : Up) : Res Up :=
  if u.f.c.closed then .ok u
  else
    match ev with
    | .readable r => if u.rd && u.f.phase = .relaying then upReadable env r u else .ok u
    | .writable r => if u.wr && u.f.phase = .relaying then upWritable env r u else .ok u
    | .client n => u.with (proxyStep env (.flush n) u.f)

/-- a history -/
def upRun : List UpEv → Up → Res Up
  | [], u => .ok u
  | ev :: r, u =>
    match upStep env ev u with
    | .ok u => upRun r u
    | .err => .err
    | .ub => .ub

end

/-! ## the PROXY line in front of TLS -/

/-- what write(2) returns: some bytes were taken (0 when `n` is 0), EAGAIN, or another error -/
inductive WRes where
  | wrote (n : Nat)
  | again
  | failed
  deriving Repr, DecidableEq

/-- c->buf and what was written to the socket -/
structure PLine where
  data : Bytes
  readPos : Nat := 0
  sock : Bytes := []
  deriving Repr, DecidableEq

/-- the return values of the callback: a count, TLS_WANT_POLLOUT or -1 -/
inductive CbRes where
  | took (n : Nat)
  | wantOut
  | error
  deriving Repr, DecidableEq

/-- proxy.c:317-325 and the write(2) of what TLS has to send -/
def plinePayload (buf : Bytes) (s : PLine) : List WRes → PLine × CbRes
  | [] => (s, .wantOut)
  | .again :: _ => (s, .wantOut)
  | .failed :: _ => (s, .error)
  | .wrote n :: _ => ({ s with sock := s.sock ++ buf.take n }, .took (min n buf.length))

/-- proxy.c:305-326, proxy_write_cb; the list is what the calls of write(2) return, one after the other (EAGAIN after its end).  With
`readPos` within `data` the size does not wrap around (otherwise: C35). -/
def proxyWriteCb (buf : Bytes) (s : PLine) : List WRes → PLine × CbRes
  | ws =>
    if s.data.length - s.readPos > 0 then
      match ws with
      | [] => (s, .wantOut)
      | .again :: _ => (s, .wantOut)
      | .failed :: _ => (s, .error)
      | .wrote n :: ws =>
        if min n (s.data.length - s.readPos) = 0 then (s, .took 0)
        else
          let m := min n (s.data.length - s.readPos)
          proxyWriteCb buf { s with readPos := s.readPos + m, sock := s.sock ++ (s.data.drop s.readPos).take m } ws
    else plinePayload buf s ws

/-- the calls libtls makes: each with what it has to send and the results of write(2); what was taken in all of them -/
def plineCalls : List (Bytes × List WRes) → PLine → PLine × Bytes
  | [], s => (s, [])
  | (buf, ws) :: r, s =>
    match proxyWriteCb buf s ws with
    | (s, .took n) =>
      let q := plineCalls r s
      (q.1, buf.take n ++ q.2)
    | (s, _) => plineCalls r s

end Gmid

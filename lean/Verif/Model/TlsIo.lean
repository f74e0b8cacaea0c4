import Verif.Model.Fcgi
import Verif.Model.Proxy

/-!
# Model of the events of a client connection

The client of Model/Server.lean, Model/Fcgi.lean and Model/Proxy.lean with the two libevent events of its bufferevent: an event fires only
while it is pending, and is then no longer pending until it is added again (event_set without EV_PERSIST, server.c:386-389).  No timeout is
ever given for them, so EV_TIMEOUT is left out.  What tls_read and tls_write return is an input.
-/

set_option autoImplicit false

namespace Gmid

/-- what tls_read and tls_write return: a result, TLS_WANT_POLLIN or TLS_WANT_POLLOUT, or -1 -/
inductive TlsRes (α : Type) where
  | got (a : α)
  | want
  | failed
  deriving Repr, DecidableEq

/-- a client connection: `rd` and `wr` are whether ev_read and ev_write are pending; the buffers of the FastCGI application and of the
upstream server, if there is one -/
structure Conn where
  c : Client
  rd : Bool
  wr : Bool
  sbuf : Bytes := []
  fsrc : Bytes := []
  phase : PPhase := .over
  psrc : Bytes := []
  deriving Repr

section
variable (env : Env)

/-- libevent: adding data to the output buffer of a bufferevent adds its ev_write (bufferevent_write and, since 2.0, any other way: those
used here are followed by bufferevent_write or event_add).  Simplified: `out` is compared, so that output that was replaced by the very same
bytes does not count; ev_write was pending then. -/
def added (before after : Client) (wr : Bool) : Bool := wr || decide (after.out ≠ before.out)

/-- server.c:421-429, the end of handle_handshake: reading is enabled, by bufferevent_enable(EV_READ) or, when the host is not known, by the
bufferevent_enable(EVBUFFER_WRITE) of start_reply, EVBUFFER_WRITE being EV_READ (server.c:1160) -/
def connStart (sni : Option Bytes) (c : Client) : Conn :=
  let c' := handshakeDone env sni c
  { c := c', rd := true, wr := added c c' false }

/-- the outcome of a callback for the connection -/
def Conn.after (k : Conn) (r : Res Client) : Res Conn :=
  match r with
  | .ok c' => .ok { k with c := c', wr := added k.c c' k.wr }
  | .err => .err
  | .ub => .ub

/-- server.c:856-916, client_tls_readcb: tls_read got some data, wants to be called again, failed, or found the end (no data) -/
def connReadable (r : TlsRes Bytes) (k : Conn) : Res Conn :=
  let k := { k with rd := false }
  match r with
  | .want => .ok { k with rd := true }
  | .failed => k.after (.ok (clientError env .error k.c))
  | .got [] => k.after (.ok (clientError env .eof k.c))
  | .got data => { k with rd := true }.after (clientRead env { k.c with inp := k.c.inp ++ data })

/-- server.c:918-961, client_tls_writecb: tls_write took `n` bytes, wants to be called again, or failed; `rd` is what client_write would read
from the file.  client_write adds ev_write itself for a directory (server.c:1110). -/
def connWritable (bufsiz : Nat) (r : TlsRes Nat) (rd : Option Bytes) (k : Conn) : Res Conn :=
  let k := { k with wr := false }
  let flushed (k : Conn) : Res Conn :=
    if k.c.out = [] then { k with wr := decide (k.c.type = RType.dir) }.after (clientWrite env bufsiz rd k.c) else .ok { k with wr := true }
  if k.c.out = [] then flushed k
  else
    match r with
    | .want => .ok { k with wr := true }
    | .failed => k.after (.ok (clientError env .error k.c))
    | .got n => flushed { k with c := { k.c with sent := k.c.sent ++ k.c.out.take n, out := k.c.out.drop n } }

/-- what can happen to a client connection -/
inductive ConnEv where
  | readable (r : TlsRes Bytes)
  | writable (r : TlsRes Nat) (rd : Option Bytes)
  | fcgiData (b : Bytes)                                           -- fcgi_read
  | fcgiEnd                                                        -- fcgi_error, called by libevent
  | proxy (ev : PEv)                                               -- proxy_handshake, proxy_read, proxy_error; no flush
  deriving Repr

/-- one event; those of the client's socket are only reported while they are pending -/
def connStep (bufsiz : Nat) (ev : ConnEv) (k : Conn) : Res Conn :=
  if k.c.closed then .ok k
  else
    match ev with
    | .readable r => if k.rd then connReadable env r k else .ok k
    | .writable r rd => if k.wr then connWritable env bufsiz r rd k else .ok k
    | .fcgiData b =>
      match fcgiRead env { c := k.c, sbuf := k.sbuf, src := k.fsrc } b with
      | .ok f => { k with sbuf := f.sbuf, fsrc := f.src }.after (.ok f.c)
      | .err => .err
      | .ub => .ub
    | .fcgiEnd => k.after (.ok (fcgiError env { c := k.c, sbuf := k.sbuf, src := k.fsrc }).c)
    | .proxy (.flush _) => .ok k
    | .proxy ev =>
      match proxyStep env ev { c := k.c, phase := k.phase, src := k.psrc } with
      | .ok f => { k with phase := f.phase, psrc := f.src }.after (.ok f.c)
      | .err => .err
      | .ub => .ub

end

/-- a history: events, each with the environment at that moment -/
def connRun (bufsiz : Nat) : List (Env × ConnEv) → Conn → Res Conn
  | [], k => .ok k
  | (env, ev) :: r, k =>
    match connStep env bufsiz ev k with
    | .ok k => connRun bufsiz r k
    | .err => .err
    | .ub => .ub

end Gmid

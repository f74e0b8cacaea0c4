import Verif.Model.TlsIo

/-!
# A server process whose configuration is replaced while it has clients

config_purge (config.c:58-171) frees the hosts, their locations and relays, and the addresses; the clients keep pointers to them: `c->addr`, set by
server_accept, `c->host`, set by handle_handshake, and `c->proxy`, set by apply_reverse_proxy to one of the relays of `c->host`.  A pointer is modelled by
the number of purges before it was taken: it is valid as long as there was no other.  What is left out: the FastCGI endpoints and the types, which are
looked up in `c->conf`, and struct conf itself, which stays.
-/

set_option autoImplicit false

namespace Gmid

/-- struct client (gmid.h:319-366) in a server process -/
structure LConn where
  /-- tls_handshake has not returned 0 yet -/
  shaking : Bool := true
  k : Conn := { c := {}, rd := false, wr := false }
  /-- c->addr -/
  addrAt : Nat
  /-- c->host, NULL or the host at a position of conf->hosts -/
  host : Option (Nat × Nat) := none
  deriving Repr

/-- a server process: `hosts` is conf->hosts -/
structure LProc where
  purges : Nat := 0
  hosts : List Vhost := []
  conns : List LConn := []
  deriving Repr

/-- what can happen -/
inductive LEv where
  /-- server_accept -/
  | accept
  /-- tls_handshake comes to the ClientHello; the name in it, unless there is none or it is an address -/
  | hello (i : Nat) (name : Option Bytes)
  /-- tls_handshake returns 0; the name tls_conn_servername gives -/
  | shaken (i : Nat) (env : Env) (sni : Option Bytes)
  /-- tls_handshake returns -1 -/
  | shakeFailed (i : Nat)
  /-- an event of an established connection, of its application or of its upstream server -/
  | conn (i : Nat) (env : Env) (ev : ConnEv)
  /-- IMSG_RECONF_START -/
  | purge
  /-- a message of the new configuration adds to conf->hosts or to its last host, or load_vhosts opens the directories -/
  | conf (hs : List Vhost)

/-- `stale`: memory that was freed is read; `other`: undefined behaviour of another kind -/
inductive LOut (α : Type) where
  | ok (a : α)
  | stale
  | other

/-- whether memory that was freed is read, and what there is if nothing went wrong (to look at examples) -/
def LOut.stale? {α : Type} : LOut α → Bool
  | .stale => true
  | _ => false
def LOut.val? {α : Type} : LOut α → Option α
  | .ok a => some a
  | _ => none

/-- server.c:963-1012, client_read: whether it goes further than waiting for the rest of the line.  If so `c->host` is read: by start_reply (server.c:1176,
1186), or by matched_proxy (server.c:509). -/
def takesUp (c : Client) : Bool := decide (c.type = .undecided) && (decide (c.inp.length > 1024 + 2) || (readLine c.inp).isSome)

/-- Whether `c->host` or `c->proxy` is read when the event takes the connection from `k` to `k'`: by client_read as above, by proxy_enqueue_req at the end of the
handshake with the upstream server (proxy.c:243), and by start_reply (server.c:1176, 1186), which is called when that handshake fails or takes too long
(proxy.c:269-272, 284-287), and otherwise exactly when there is a status code that was not there.  client_write, client_close and the rest of client_error read
neither. -/
def usesHost (ev : ConnEv) (k k' : Conn) : Bool :=
  !k.c.closed &&
  match ev with
  | .readable (.got data) => k.rd && decide (data ≠ []) && takesUp { k.c with inp := k.c.inp ++ data }
  | .readable _ => false
  | .writable _ _ => false
  | .proxy (.handshake _) => decide (k.phase = .connecting)
  | .proxy .timeout => decide (k.phase = .connecting)
  | _ => decide (k.c.code = 0) && decide (k'.c.code ≠ 0)

/-- Whether `c->addr` is read: by fmtbuf for %P (server.c:466) and for the PROXY line (server.c:603).  Simplified: whenever a request is taken up. -/
def usesAddr (ev : ConnEv) (k : Conn) : Bool :=
  !k.c.closed &&
  match ev with
  | .readable (.got data) => k.rd && decide (data ≠ []) && takesUp { k.c with inp := k.c.inp ++ data }
  | _ => false

def hostStale (p : LProc) (l : LConn) : Bool :=
  match l.host with
  | none => false
  | some (g, _) => decide (g ≠ p.purges)
def addrStale (p : LProc) (l : LConn) : Bool := decide (l.addrAt ≠ p.purges)

/-- what `c->host` points to now; nothing is assumed of it once it was freed -/
def LConn.now (p : LProc) (l : LConn) : Conn :=
  match l.host with
  | none => l.k
  | some (g, j) => if g = p.purges then { l.k with c := { l.k.c with host := p.hosts[j]? } } else l.k

/-- server.c:629-641, the end of apply_reverse_proxy, and proxy.c:384-397, proxy_init: a relay has begun -/
def relayBegins (k k' : Conn) : Conn :=
  if k'.c.type = .proxy && decide (k.c.type ≠ .proxy) then
    match k'.c.effs.getLast? with
    | some (.relay p) => { k' with phase := if p.notls then .relaying else .connecting }
    | _ => k'
  else k'

/-- whether the event reads what was freed -/
def readsFreed (p : LProc) (l : LConn) (ev : ConnEv) (k k' : Conn) : Bool := (hostStale p l && usesHost ev k k') || (addrStale p l && usesAddr ev k)

/-- an event of an established connection -/
def liveStep (bufsiz : Nat) (env : Env) (ev : ConnEv) (p : LProc) (l : LConn) : LOut LConn :=
  match connStep env bufsiz ev (l.now p) with
  | .ok k' => if readsFreed p l ev (l.now p) k' then .stale else .ok { l with k := relayBegins (l.now p) k' }
  | _ => if readsFreed p l ev (l.now p) (l.now p) then .stale else .other

/-- server.c:404-411: whether handle_handshake needs the name of the address -/
def needsPp (env : Env) (sni : Option Bytes) : Bool :=
  match sni with
  | none => true
  | some s => decide (env.puny s = some [])

/-- server.c:354-430, handle_handshake after tls_handshake returned 0 -/
def liveShaken (env : Env) (sni : Option Bytes) (p : LProc) (l : LConn) : LOut LConn :=
  if addrStale p l && needsPp env sni then .stale
  else
    let env := { env with hosts := p.hosts }
    let k := connStart env sni {}
    .ok { l with shaking := false, k := k, host := if k.c.host.isSome then (p.hosts.findIdx? fun h => matchHost env.fnm h k.c.domain).map fun j => (p.purges, j) else none }

/-- the outcome for a connection, in the process -/
def LProc.put (p : LProc) (i : Nat) : LOut LConn → LOut LProc
  | .ok l => .ok { p with conns := p.conns.set i l }
  | .stale => .stale
  | .other => .other

/-- one event.  tls_servername_cb (compat/libtls/tls_server.c:84-142) walks the list of the context of the address, which config_purge freed with
tls_free (config.c:145). -/
def lstep (bufsiz : Nat) (ev : LEv) (p : LProc) : LOut LProc :=
  match ev with
  | .accept => .ok { p with conns := p.conns ++ [{ addrAt := p.purges }] }
  | .hello i name =>
    match p.conns[i]? with
    | some l => if l.shaking && !l.k.c.closed && name.isSome && addrStale p l then .stale else .ok p
    | none => .ok p
  | .shaken i env sni =>
    match p.conns[i]? with
    | some l => if l.shaking && !l.k.c.closed then p.put i (liveShaken env sni p l) else .ok p
    | none => .ok p
  | .shakeFailed i =>
    match p.conns[i]? with
    | some l => if l.shaking && !l.k.c.closed then p.put i (.ok { l with k := { l.k with c := clientClose l.k.c } }) else .ok p
    | none => .ok p
  | .conn i env ev =>
    match p.conns[i]? with
    | some l => if l.shaking then .ok p else p.put i (liveStep bufsiz env ev p l)
    | none => .ok p
  | .purge => .ok { p with purges := p.purges + 1, hosts := [] }
  | .conf hs => .ok { p with hosts := hs }

/-- a history -/
def lrun (bufsiz : Nat) : List LEv → LProc → LOut LProc
  | [], p => .ok p
  | ev :: r, p =>
    match lstep bufsiz ev p with
    | .ok p => lrun bufsiz r p
    | .stale => .stale
    | .other => .other

end Gmid

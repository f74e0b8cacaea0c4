import Verif.Model.CStr

/-!
# Outgoing connections: server.c (proxy_socket, fcgi_open_conn, fcgi_open_sock), gg.c (connectto), titan.c (dial)

The descriptors of the process: for each number whether it is open and, if so, the peer it is connected to.
socket(2) may fail or give any number that is not in use; connect(2) may fail.  Both outcomes are given with each
address getaddrinfo(3) returned.
-/

set_option autoImplicit false

namespace Gmid

/-- descriptor tables with the address each socket is connected to -/
abbrev Socks (α : Type) := Nat → Option (Option α)

/-- an address to try and what happens: the descriptor socket(2) gives, whether connect(2) works -/
structure Attempt (α : Type) where
  addr : α
  sock : Option Nat
  conn : Bool

/-- socket(2) -/
def Socks.socket {α : Type} (t : Socks α) (o : Option Nat) : Socks α × Option Nat :=
  match o with
  | none => (t, none)
  | some n => if (t n).isSome then (t, none) else (fun x => if x = n then some none else t x, some n)

/-- connect(2) that works -/
def Socks.connect {α : Type} (t : Socks α) (fd : Nat) (a : α) : Socks α :=
  fun x => if x = fd then some (some a) else t x

/-- close(2) -/
def Socks.close {α : Type} (t : Socks α) (fd : Nat) : Socks α := fun x => if x = fd then none else t x

/-- the loop of server.c:564-582 (proxy_socket), gg.c:107-125 (connectto), titan.c:76-95 (dial); `sock` is the
variable: `none` for -1 -/
def connectLoop {α : Type} (t : Socks α) : Option Nat → List (Attempt α) → Socks α × Option Nat
  | sock, [] => (t, sock)
  | _, a :: r =>
    match t.socket a.sock with
    | (t, none) => connectLoop t none r
    | (t, some fd) => if a.conn then (t.connect fd a.addr, some fd) else connectLoop (t.close fd) none r

/-- server.c:546-614, proxy_socket: `none` for -1.  `sock` is not initialised: with no address to try its value
is arbitrary, `junk`.  The PROXY line is in Model/ProxyProto. -/
def proxySocket {α : Type} (t : Socks α) (junk : Option Nat) (gai : Option (List (Attempt α))) : Socks α × Option Nat :=
  match gai with
  | none => (t, none)
  | some l => connectLoop t junk l

/-- gg.c:83-137, connectto: `none` when the program ends with an error.  `s` is initialised. -/
def ggConnect {α : Type} (t : Socks α) (gai : Option (List (Attempt α))) : Socks α × Option Nat :=
  match gai with
  | none => (t, none)
  | some l => connectLoop t none l

/-- titan.c:58-101, dial: `none` when the program ends with an error.  Setting O_NONBLOCK does not fail. -/
def titanDial {α : Type} (t : Socks α) (gai : Option (List (Attempt α))) : Socks α × Option Nat :=
  match gai with
  | none => (t, none)
  | some l => connectLoop t none l

/-- server.c:686-700, the loop of fcgi_open_conn: `sock` keeps the number of a closed descriptor.  The second
result says whether the loop was left by `break`, that is whether `p` is not NULL. -/
def fcgiDialLoop {α : Type} (t : Socks α) : Option Nat → List (Attempt α) → Socks α × Option Nat × Bool
  | sock, [] => (t, sock, false)
  | _, a :: r =>
    match t.socket a.sock with
    | (t, none) => fcgiDialLoop t none r
    | (t, some fd) => if a.conn then (t.connect fd a.addr, some fd, true) else fcgiDialLoop (t.close fd) (some fd) r

/-- server.c:668-710, fcgi_open_conn -/
def fcgiOpenConn {α : Type} (t : Socks α) (junk : Option Nat) (gai : Option (List (Attempt α))) : Socks α × Option Nat :=
  match gai with
  | none => (t, none)
  | some l =>
    match fcgiDialLoop t junk l with
    | (t, sock, true) => (t, sock)
    | (t, _, false) => (t, none)

/-- `sizeof(addr.sun_path)` -/
def sunPathLen : Nat := 108

/-- server.c:644-666, fcgi_open_sock: the path given to connect(2) is the terminated string in `sun_path`, filled by
strlcpy (C45) -/
def fcgiOpenSock (t : Socks Bytes) (path : Bytes) (sock : Option Nat) (conn : Bytes → Bool) : Socks Bytes × Option Nat :=
  match t.socket sock with
  | (t, none) => (t, none)
  | (t, some fd) =>
    let sun := path.take (sunPathLen - 1)
    if conn sun then (t.connect fd sun, some fd) else (t.close fd, none)

/-- server.c:734-737 in apply_fastcgi: an endpoint without a port is a socket in the file system -/
def fcgiOpen (t : Socks Bytes) (path port : Bytes) (junk sock : Option Nat) (conn : Bytes → Bool) (gai : Option (List (Attempt Bytes))) :
    Socks Bytes × Option Nat :=
  if port = [] then fcgiOpenSock t path sock conn else fcgiOpenConn t junk gai

end Gmid

import Verif.Model.ProxyProto

/-!
# Waiting for a client behind a proxy: handle_handshake, tls_handshake and read_cb

A connection on an address with proxy-v1, from accept to the end of the handshake: which bytes have come, which of them
the TLS layer has been given, and whether the server waits for the socket to become readable.
-/

set_option autoImplicit false

namespace Gmid

variable {A : Type}

/-- A client that is connecting.  `st.sock` is what it sends, now or later, and was not read yet; `avail` of these bytes have come. -/
structure PWait where
  st : RState
  avail : Nat := 0
  /-- read_cb returned TLS_WANT_POLLIN the last time: tls_handshake returned that too (compat/libtls/tls_bio_cb.c:112-126), and
  handle_handshake waits for EV_READ (server.c:371-373) -/
  waiting : Bool := false

/-- One call of read_cb (server.c:1308-1391) for `b` bytes.  read(2) gives what has come, as much as there is room for.  read_cb returns
the number of bytes it has copied (server.c:1320-1325, 1327-1338), or TLS_WANT_POLLIN if it has copied none: when nothing had come
(server.c:1322, 1347-1348), when the header is not complete (server.c:1353-1354) and at the end of the header (server.c:1390).  Ends
of files and errors are not modelled. -/
def askOnce (num : Option Nat → Bytes → Option A) (name : A → Option Bytes) (b : Nat) (w : PWait) : Res PWait :=
  match readCb num name b w.avail w.st with
  | .ok st => .ok { st := st, avail := w.avail - (w.st.sock.length - st.sock.length), waiting := decide (st.out.length = w.st.out.length) }
  | .err => .err
  | .ub => .ub

/-- tls_handshake (server.c:363): the TLS layer asks for bytes, `bs` says for how many each time, until it has what it wants (the list
ends) or is told to wait, or read_cb fails -/
def askLoop (num : Option Nat → Bytes → Option A) (name : A → Option Bytes) : List Nat → PWait → Res PWait
  | [], w => .ok { w with waiting := false }
  | b :: bs, w =>
    match askOnce num name b w with
    | .ok w => if w.waiting || w.st.failed then .ok w else askLoop num name bs w
    | .err => .err
    | .ub => .ub

inductive PWEv where
  /-- that many bytes come -/
  | arrive (n : Nat)
  /-- an occasion for the event loop to run handle_handshake -/
  | wake (bs : List Nat)
  deriving Repr, DecidableEq

/-- An event.  handle_handshake runs at first (server.c:1454: EV_READ|EV_WRITE), when the TLS layer was waiting for something else, and, when it
is waiting to read (server.c:371-373), if the socket is readable. -/
def pwStep (num : Option Nat → Bytes → Option A) (name : A → Option Bytes) (w : PWait) : PWEv → Res PWait
  | .arrive n => .ok { w with avail := min (w.avail + n) w.st.sock.length }
  | .wake bs => if w.st.failed || (w.waiting && w.avail == 0) then .ok w else askLoop num name bs w

def pwRun (num : Option Nat → Bytes → Option A) (name : A → Option Bytes) : List PWEv → PWait → Res PWait
  | [], w => .ok w
  | e :: es, w =>
    match pwStep num name w e with
    | .ok w => pwRun num name es w
    | .err => .err
    | .ub => .ub

end Gmid

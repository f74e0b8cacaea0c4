import Verif.Model.Basic

/-!
# The resources of a connection (server.c, fcgi.c, proxy.c)

What a server process holds for its connections: descriptors, TLS contexts and the connection
records, and how `client_close` and its helpers give them back.  Descriptor numbers and context
addresses are reused as soon as they are released, as the kernel and the allocator do: `World.fds`
maps every open descriptor number to the connection it was opened for, `World.ctxs` every live TLS
context address likewise.

Left out: the sending of data, memory other than the TLS contexts and the connection record
(request line, reply header, directory entries), and the listening sockets.  `getnameinfo` and
memory failures are inputs (the outcome fields of the events).
-/
set_option autoImplicit false

namespace Gmid

/-- how far a connection record is in its life: not there yet, in use, `client_close` was called but
`tls_close` has to be tried again, given back -/
inductive CLife where
  | idle | live | closing | freed
  deriving DecidableEq, Repr

/-- the resource-holding fields of `struct client`, gmid.h:320-365 (`pfd = none` is -1, `pctx = none`
is NULL; the bufferevent pointers are only NULL or not; `decided` is `type != REQUEST_UNDECIDED`) -/
structure RConn where
  life : CLife := .idle
  fd : Nat := 0
  ctx : Nat := 0
  pfd : Option Nat := none
  pctx : Option Nat := none
  bev : Bool := false
  cgibev : Bool := false
  pbev : Bool := false
  decided : Bool := false
  deriving DecidableEq, Repr

/-- one-shot events registered with `event_once`, server.c:1214, 1217, 1251, 1254; the callback of the
second is given the descriptor and the context, the connection `i` is kept for the statements -/
inductive Once where
  | closeEv (i : Nat)
  | proxyEv (i fd ctx : Nat)
  deriving DecidableEq, Repr

/-- a server process: open descriptors and live TLS contexts with the connection they belong to, the
connection records, registered one-shot events.  `fault`: a descriptor that is not the connection's
(or not open) was closed, or a context or record that was given back was used. -/
structure World where
  fds : Nat → Option Nat := fun _ => none
  ctxs : Nat → Option Nat := fun _ => none
  conns : Nat → RConn := fun _ => {}
  evs : List Once := []
  fault : Bool := false

/-- table update (no C counterpart) -/
def upd {α : Type} (f : Nat → α) (k : Nat) (v : α) : Nat → α := fun x => if x = k then v else f x

/-- change a connection record -/
def World.set (w : World) (i : Nat) (c : RConn) : World := { w with conns := upd w.conns i c }

/-- the kernel hands out descriptor `n` (`accept`, `openat`, `socket`) for connection `i` -/
def World.openFd (w : World) (i n : Nat) : World := { w with fds := upd w.fds n (some i) }

/-- `close(n)` on behalf of connection `i`: whatever `n` is, it is closed -/
def World.closeFd (w : World) (i n : Nat) : World :=
  { w with fds := upd w.fds n none, fault := w.fault || (w.fds n != some i) }

/-- `close(c->pfd)`, where `close(-1)` only fails with EBADF -/
def World.closePfd (w : World) (i : Nat) : Option Nat → World
  | none => w
  | some n => w.closeFd i n

/-- `tls_accept_cbs` / `tls_client`: a new context at an address that is free -/
def World.newCtx (w : World) (i k : Nat) : World := { w with ctxs := upd w.ctxs k (some i) }

/-- any libtls call on the context at `k` for connection `i` -/
def World.useCtx (w : World) (i k : Nat) : World := { w with fault := w.fault || (w.ctxs k != some i) }

/-- `tls_free` -/
def World.freeCtx (w : World) (i k : Nat) : World :=
  { w with ctxs := upd w.ctxs k none, fault := w.fault || (w.ctxs k != some i) }

/-- `tls_free(c->proxyctx)`, which does nothing on NULL -/
def World.freePctx (w : World) (i : Nat) : Option Nat → World
  | none => w
  | some k => w.freeCtx i k

/-- what `tls_close` returns: TLS_WANT_POLLIN or TLS_WANT_POLLOUT (`again`), or 0 or -1 (`done`) -/
inductive TlsClose where
  | again | done
  deriving DecidableEq, Repr

/-- `client_close_ev`, server.c:1207-1240 (a callback on a record already given back is a fault) -/
def clientCloseEv (w : World) (i : Nat) (r : TlsClose) : World :=
  let c := w.conns i
  let w := { w with fault := w.fault || (c.life == CLife.freed) }
  let w := w.useCtx i c.ctx
  match r with
  | .again => { w.set i { c with life := .closing } with evs := w.evs ++ [Once.closeEv i] }
  | .done =>
    let w := w.freeCtx i c.ctx
    let w := w.closePfd i c.pfd
    let w := w.closeFd i c.fd
    w.set i { life := .freed }

/-- `client_proxy_close`, server.c:1242-1262: after asking to be called again it goes on to free the
context and close the descriptor.  `i` is the connection the upstream connection was made for. -/
def clientProxyClose (w : World) (i fd ctx : Nat) (r : TlsClose) : World :=
  let w := w.useCtx i ctx
  let w := match r with
    | .again => { w with evs := w.evs ++ [Once.proxyEv i fd ctx] }
    | .done => w
  (w.freeCtx i ctx).closeFd i fd

/-- `client_close`, server.c:1264-1306; `pr` and `r` are what `tls_close` returns for the upstream and
for the client -/
def closeConn (w : World) (i : Nat) (pr r : TlsClose) : World :=
  let c := w.conns i
  let (w, c) := if c.cgibev then
      (w.closePfd i c.pfd, { c with cgibev := false, pfd := none })
    else (w, c)
  let (w, c) := match c.pfd, c.pctx with
    | some n, some k => (clientProxyClose w i n k pr, { c with pfd := none })
    | _, _ => (w, c)
  clientCloseEv (w.set i c) i r

/-- how opening a directory goes on, server.c:780-838: redirected to the name with the slash; the
index file `m` is served; or there is no index (`none`), or `m` is not a regular file, or `fstat`
failed on it, or it is a directory listing with its outcome -/
inductive ListRes where
  | forbidden      -- server.c:780: no auto index
  | noDir          -- dirs.c:77: fdopendir failed
  | scanned        -- dirs.c:137, 146: closedir, whatever the result
  deriving DecidableEq, Repr

inductive DirRes where
  | redirect
  | index (m : Nat)
  | indexStat (m : Nat)
  | list (m : Option Nat) (l : ListRes)
  deriving DecidableEq, Repr

/-- the outcome of `proxy_init`, proxy.c:328-400 and apply_reverse_proxy, server.c:638: no TLS;
`tls_client` or an earlier step failed; a later step failed; set up -/
inductive PInit where
  | notls
  | failEarly
  | failLate (k : Nat)
  | tls (k : Nat)
  deriving DecidableEq, Repr

/-- what happens in the server process -/
inductive RelEv where
  | accept (i fd : Nat) (ctx : Option Nat)            -- server_accept; `none`: getnameinfo or tls_accept_cbs failed
  | handshake (i : Nat)                               -- handle_handshake succeeded
  | decide (i : Nat)                                  -- start_reply, or the type set by an upstream's reply
  | file (i n : Nat)                                  -- client_read: openat gave `n`, not a directory (or fstat failed)
  | dir (i n : Nat) (r : DirRes)                      -- client_read: openat gave the directory `n`
  | fastcgi (i n : Nat) (bev : Bool)                  -- apply_fastcgi: connected on `n`; bufferevent_new succeeded or not
  | fcgiError (i : Nat)                               -- fcgi_error
  | proxy (i n : Nat) (p : PInit)                     -- apply_reverse_proxy: connected on `n`
  | proxyReady (i : Nat)                              -- proxy_handshake succeeded: proxy_enqueue_req
  | proxyError (i : Nat)                              -- proxy_error
  | close (i : Nat) (pr r : TlsClose)                 -- client_close
  | fire (e : Once) (r : TlsClose)                    -- a registered one-shot event fires
  deriving DecidableEq, Repr

/-- a request can be acted on: the bufferevent exists, the connection is not being closed and
`client_read` does not bail out, server.c:975 -/
def RConn.reads (c : RConn) : Bool := c.life == .live && c.bev && !c.decided

/-- `server_dir_listing` and `scandir_fd`, server.c:772-799, dirs.c:70-147: the `DIR` made from
`c->pfd` is closed with it, and `c->pfd` keeps the number -/
def dirListingFds (w : World) (i n : Nat) (l : ListRes) : World :=
  match l with
  | .forbidden => w
  | .noDir => w
  | .scanned => w.closeFd i n

/-- `open_dir`, server.c:801-838, on the directory `n`; returns the new `c->pfd`, or none when the
descriptor numbers are not ones the kernel could return -/
def openDirFds (w : World) (i n : Nat) : DirRes → Option (World × Nat)
  | .redirect => some (w, n)
  | .index m => if w.fds m = none then some ((w.openFd i m).closeFd i n, m) else none
  | .indexStat m => if w.fds m = none then some ((w.openFd i m).closeFd i m, n) else none
  | .list none l => some (dirListingFds w i n l, n)
  | .list (some m) l =>
    if w.fds m = none then some (dirListingFds ((w.openFd i m).closeFd i m) i n l, n) else none

/-- one step of the process; `none`: this cannot happen now (the callback is not registered, the
connection does not exist, the descriptor or address is in use) -/
def World.step (w : World) : RelEv → Option World
  | .accept i fd ctx =>                                   -- server.c:1404-1454
    if (w.conns i).life = .idle ∧ w.fds fd = none then
      match ctx with
      | none => some ((w.openFd i fd).closeFd i fd)
      | some k =>
        if w.ctxs k = none then
          some (((w.openFd i fd).newCtx i k).set i { life := .live, fd := fd, ctx := k })
        else none
    else none
  | .handshake i =>                                       -- server.c:382
    let c := w.conns i
    if c.life = .live ∧ c.bev = false then some ((w.useCtx i c.ctx).set i { c with bev := true }) else none
  | .decide i =>
    let c := w.conns i
    if c.life = .live then some (w.set i { c with decided := true }) else none
  | .file i n =>                                          -- server.c:1040, 1060
    let c := w.conns i
    if c.reads ∧ w.fds n = none then
      some ((w.openFd i n).set i { c with pfd := some n, decided := true })
    else none
  | .dir i n r =>                                         -- server.c:1040, 1054-1056
    let c := w.conns i
    if c.reads ∧ w.fds n = none then
      (openDirFds (w.openFd i n) i n r).map fun (w, p) => w.set i { c with pfd := some p, decided := true }
    else none
  | .fastcgi i n b =>                                     -- server.c:736-757; the type stays undecided
    let c := w.conns i
    if c.reads ∧ w.fds n = none then
      some ((w.openFd i n).set i { c with pfd := some n, cgibev := b, decided := !b })
    else none
  | .fcgiError i =>                                       -- fcgi.c:347-371
    let c := w.conns i
    if c.life = .live ∧ c.cgibev = true then
      some ((w.closePfd i c.pfd).set i { c with pfd := none, decided := true })
    else none
  | .proxy i n p =>                                       -- server.c:632-640, proxy.c:354-400
    let c := w.conns i
    if c.reads ∧ w.fds n = none then
      let w := w.openFd i n
      match p with
      | .notls => some (w.set i { c with pfd := some n, pbev := true, decided := true })
      | .failEarly => some (w.set i { c with pfd := some n, decided := true })
      | .failLate k =>
        if w.ctxs k = none then
          some (((w.newCtx i k).freeCtx i k).set i { c with pfd := some n, pctx := none, decided := true })
        else none
      | .tls k =>
        if w.ctxs k = none then
          some ((w.newCtx i k).set i { c with pfd := some n, pctx := some k, decided := true })
        else none
    else none
  | .proxyReady i =>                                      -- proxy.c:273-292
    let c := w.conns i
    if c.life = .live ∧ c.pctx.isSome ∧ c.pbev = false then
      some ((match c.pctx with | some k => w.useCtx i k | none => w).set i { c with pbev := true })
    else none
  | .proxyError i =>                                      -- proxy.c:199-226
    let c := w.conns i
    if c.life = .live ∧ c.pbev = true then
      some (((w.freePctx i c.pctx).closePfd i c.pfd).set i { c with pbev := false, pctx := none, pfd := none, decided := true })
    else none
  | .close i pr r =>                                      -- server.c:1264-1306
    if (w.conns i).life = .live then some (closeConn w i pr r) else none
  | .fire (.closeEv i) r =>                               -- server.c:1207
    if Once.closeEv i ∈ w.evs then
      some (clientCloseEv { w with evs := w.evs.erase (.closeEv i) } i r)
    else none
  | .fire (.proxyEv i fd ctx) r =>                        -- server.c:1242
    if Once.proxyEv i fd ctx ∈ w.evs then
      some (clientProxyClose { w with evs := w.evs.erase (.proxyEv i fd ctx) } i fd ctx r)
    else none

/-- a history of the process -/
def World.run (w : World) : List RelEv → Option World
  | [] => some w
  | e :: es => (w.step e).bind (·.run es)

end Gmid

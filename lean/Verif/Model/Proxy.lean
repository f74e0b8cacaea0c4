import Verif.Model.Server
import Verif.Model.Compat

/-!
# Model of proxy.c: the upstream side of a relayed request

What is sent upstream is modelled with serialize_iri (Model/Iri.lean).
-/

set_option autoImplicit false

namespace Gmid

/-- the upstream connection: TLS handshake going on, established, or gone -/
inductive PPhase where
  | connecting | relaying | over
  deriving Repr, DecidableEq

/-- the client, the upstream connection and the input buffer of `proxybev` -/
structure PClient where
  c : Client
  phase : PPhase := .relaying
  src : Bytes := []
  deriving Repr

section
variable (env : Env)

/-- proxy.c:199-226, proxy_error (releasing the connection: the phase).  client_write has no file to read. -/
def proxyError (f : PClient) : Res PClient :=
  let f : PClient := { f with phase := .over, c := { f.c with pfd := -1 } }
  if f.c.code = 0 then .ok { f with c := startReply env f.c 43 b%"protocol error" }
  else
    match clientWrite env 0 none { f.c with type := .done } with
    | .ok c => .ok { f with c := c }
    | .err => .err
    | .ub => .ub

/-- proxy.c:134-187, proxy_read once `data` was added to the input buffer.  start_reply never fails here (no
allocation failures). -/
def proxyRead (f : PClient) (data : Bytes) : Res PClient :=
  let f := { f with src := f.src ++ data }
  if f.c.code = 0 then
    match readLine f.src with
    | none => if f.src.length > 1029 then proxyError env f else .ok f
    | some (hdr, rest) =>
      let f := { f with src := rest }
      match hdr with
      | a :: b :: s :: text =>
        if hdr.length > 1029 || !isDigit a || !isDigit b || !isSpace s then proxyError env f
        else
          let code : Int := ((a.toNat - 48) * 10 + (b.toNat - 48) : Nat)
          if code < 10 || code ≥ 70 then proxyError env f
          else
            let f := { f with c := startReply env f.c code (cstr text) }
            if f.c.code < 20 || f.c.code > 29 then proxyError env f
            else .ok { f with c := { f.c with out := f.c.out ++ f.src }, src := [] }
      | _ => proxyError env f
  else .ok { f with c := { f.c with out := f.c.out ++ f.src }, src := [] }

/-- What happens to a relayed request: the end of the handshake (proxy.c:264-297), data from upstream, upstream
closing or failing, the client's connection accepting `n` bytes. -/
inductive PEv where
  | handshake (ok : Bool)
  | timeout
  | data (b : Bytes)
  | eof
  | flush (n : Nat)
  deriving Repr

/-- one event; nothing happens once the client is closed -/
def proxyStep (ev : PEv) (f : PClient) : Res PClient :=
  if f.c.closed then .ok f
  else
    match ev, f.phase with
    | .handshake true, .connecting => .ok { f with phase := .relaying }
    | .handshake false, .connecting => .ok { f with phase := .over, c := startReply env f.c 43 b%"handshake failed" }
    | .timeout, .connecting => .ok { f with phase := .over, c := startReply env f.c 43 b%"timeout" }
    | .data b, .relaying => proxyRead env f b
    | .eof, .relaying => proxyError env f
    | .flush n, _ =>
      match step env 0 (.writable n none) f.c with
      | .ok c => .ok { f with c := c }
      | .err => .err
      | .ub => .ub
    | _, _ => .ok f

/-- a history of events -/
def proxyRun : List PEv → PClient → Res PClient
  | [], f => .ok f
  | ev :: r, f =>
    match proxyStep env ev f with
    | .ok f => proxyRun r f
    | .err => .err
    | .ub => .ub

end

end Gmid

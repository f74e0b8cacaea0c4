import Verif.Model.Imsg

/-!
# Model of proc.c: the processes, and what connects them

A socketpair is a number `k`; its two ends are the descriptors `2 * k` and `2 * k + 1` (descriptors are not reused here: each names
one end for good).  Failing system calls are fatal and not modelled.  fork and exec just start the children: what they inherit is
the descriptor 3 (the others are close-on-exec).
-/

set_option autoImplicit false

namespace Gmid

/-- enum privsep_procid (proc.h:38-44) -/
abbrev pParent : Nat := 0
abbrev pServer : Nat := 1
abbrev pCrypto : Nat := 2
abbrev pLogger : Nat := 3
abbrev procMax : Nat := 4

/-- a process: its kind and its instance -/
abbrev PI := Nat × Nat

/-- ps_instances: gmid.c:355 sets that of the servers, proc_setup (proc.c:328-331) makes the others 1 -/
def instances (prefork : Nat) (p : Nat) : Nat :=
  let n := if p = pServer then prefork else 0
  if n < 1 then 1 else n

/-- a message from the parent to a child: IMSG_CTL_PROCFD, with a struct privsep_fd and a descriptor, or any of the others, which
the callback of the child handles -/
inductive PMsg where
  | procfd (id inst : Nat) (fd : Nat)
  | other
  deriving Repr, DecidableEq

/-- the parent while it starts: how many socketpairs there are, ps_pipes (`none` is -1), the descriptors given to the children as their
descriptor 3, and the messages sent to them, in order -/
structure Startup where
  socks : Nat
  pipes : PI → PI → Option Nat
  fd3 : PI → Option Nat
  sent : List (PI × PMsg)

/-- ps_pipes[p.1][p.2].pp_pipes[q.1][q.2] = v -/
def setPipe (f : PI → PI → Option Nat) (p q : PI) (v : Option Nat) : PI → PI → Option Nat :=
  fun a b => if a = p ∧ b = q then v else f a b

/-- proc.c:372-386, in proc_setup: all the pipes are unused -/
def startNone : Startup := { socks := 0, pipes := fun _ _ => none, fd3 := fun _ => none, sent := [] }

/-- proc.c:244-258, in proc_init: the socketpair of the parent and a child -/
def initOne (s : Startup) (dst inst : Nat) : Startup :=
  { s with
    socks := s.socks + 1
    pipes := setPipe (setPipe s.pipes (pParent, 0) (dst, inst) (some (2 * s.socks))) (dst, inst) (pParent, 0) (some (2 * s.socks + 1)) }

/-- proc.c:238-259, the loops of proc_init -/
def procInit (prefork : Nat) (s : Startup) : Startup :=
  (List.range procMax).foldl (fun s dst =>
    if dst = pParent then s
    else (List.range (instances prefork dst)).foldl (fun s inst => initOne s dst inst) s) s

/-- proc.c:122-123 and 137-142, in proc_exec: the child end of that socketpair becomes descriptor 3 of the child, and is closed in the parent -/
def execOne (s : Startup) (p i : Nat) : Startup :=
  { s with
    fd3 := fun a => if a = (p, i) then s.pipes (p, i) (pParent, 0) else s.fd3 a
    pipes := setPipe s.pipes (p, i) (pParent, 0) none }

/-- proc.c:112-169, the loops of proc_exec over the processes of gmid.c:51-55 -/
def procExec (prefork : Nat) (s : Startup) : Startup :=
  [pServer, pCrypto, pLogger].foldl (fun s p => (List.range (instances prefork p)).foldl (fun s i => execOne s p i) s) s

/-- proc.c:440-479, the body of proc_open -/
def openOne (s : Startup) (src i dst j : Nat) : Startup :=
  if src = dst ∧ i = j then s
  else if src = pServer ∧ dst = pServer then s
  else
    { s with
      socks := s.socks + 1
      pipes := setPipe (setPipe s.pipes (src, i) (dst, j) (some (2 * s.socks))) (dst, j) (src, i) (some (2 * s.socks + 1))
      sent := s.sent ++ [((dst, j), .procfd src i (2 * s.socks + 1)), ((src, i), .procfd dst j (2 * s.socks))] }

/-- proc.c:428-482, proc_open -/
def procOpen (prefork : Nat) (s : Startup) (src dst : Nat) : Startup :=
  (List.range (instances prefork src)).foldl (fun s i =>
    (List.range (instances prefork dst)).foldl (fun s j => openOne s src i dst j) s) s

/-- proc.c:203-212, the loops of proc_connect -/
def procConnect (prefork : Nat) (s : Startup) : Startup :=
  (List.range procMax).foldl (fun s src =>
    ((List.range procMax).filter (fun dst => decide (src ≤ dst))).foldl (fun s dst =>
      if src = pParent ∨ dst = pParent then s else procOpen prefork s src dst) s) s

/-- gmid.c:369-394: proc_init, with proc_exec, and proc_connect -/
def startup (prefork : Nat) : Startup := procConnect prefork (procExec prefork (procInit prefork startNone))

/-- the peers a child has callbacks for: the tables procs of server.c:83-87, crypto.c:37-40 and logger.c:49-52 -/
def peersOf (p : Nat) : List Nat :=
  if p = pServer then [pParent, pCrypto, pLogger] else [pParent, pServer]

/-- a child: pp_pipes of its own ps_pp, and the descriptors it closed -/
structure PChild where
  me : PI
  pp : PI → Option Nat
  closed : List (Option Nat)

/-- proc.c:281-316, proc_accept; the ids are those of the message, and are not checked -/
def procAccept (prefork : Nat) (c : PChild) (fd : Option Nat) (dst n : Nat) : Res PChild :=
  if dst ≥ procMax then .ub
  else if dst ∉ peersOf c.me.1 then .ok { c with closed := c.closed ++ [fd] }
  else if n ≥ instances prefork dst then .ub
  else if c.pp (dst, n) ≠ none then .ok { c with closed := c.closed ++ [fd] }
  else .ok { c with pp := fun q => if q = (dst, n) then fd else c.pp q }

/-- proc.c:606-607, in proc_run, once proc_setup is done -/
def childStart (prefork : Nat) (me : PI) (fd3 : Option Nat) : Res PChild :=
  procAccept prefork { me := me, pp := fun _ => none, closed := [] } fd3 pParent 0

/-- proc.c:660-697, the body of the loop of proc_dispatch, for a message of the parent; the others do not touch the pipes -/
def childStep (prefork : Nat) (c : PChild) : PMsg → Res PChild
  | .procfd id inst fd => procAccept prefork c (some fd) id inst
  | .other => .ok c

/-- the outcome of the first part, then of the second -/
def Res.bind {α β : Type} (r : Res α) (f : α → Res β) : Res β :=
  match r with
  | .ok a => f a
  | .err => .err
  | .ub => .ub

/-- several of them -/
def childSteps (prefork : Nat) (c : PChild) : List PMsg → Res PChild
  | [] => .ok c
  | m :: r => (childStep prefork c m).bind fun c => childSteps prefork c r

/-- what the parent sent to a child during the start -/
def inboxOf (prefork : Nat) (p : PI) : List PMsg := ((startup prefork).sent.filter (fun m => decide (m.1 = p))).map (·.2)

/-- a child that handled all of it -/
def childReady (prefork : Nat) (p : PI) : Res PChild :=
  (childStart prefork p ((startup prefork).fd3 p)).bind fun c => childSteps prefork c (inboxOf prefork p)

/-- the end of a socket over which `p` talks to `q`, when the start is over -/
def chanOf (prefork : Nat) (p q : PI) : Option Nat :=
  if p = (pParent, 0) then (startup prefork).pipes p q
  else match childReady prefork p with
    | .ok c => c.pp q
    | _ => none

/-! ## The end of a process -/

/-- which processes are running, and whether the main one has closed its sockets (main_shutdown, gmid.c:593-606, calls
proc_kill, proc.c:391-425, that calls proc_close).  `daemon`: main called daemon(3) (gmid.c:372), which it does after the others were started, so
that it is not their parent. -/
structure Running where
  alive : PI → Bool
  closing : Bool
  daemon : Bool

/-- the processes there are -/
def isProc (prefork : Nat) (p : PI) : Prop := p.1 < procMax ∧ p.2 < instances prefork p.1

def Running.stop (s : Running) (p : PI) : Running := { s with alive := fun q => if q = p then false else s.alive q }

/-- what happens inside of gmid.  A read from a socket whose other end is closed returns 0. -/
inductive Internal (prefork : Nat) : Running → Running → Prop where
  /-- proc.c:641-646, in proc_dispatch: the child leaves event_dispatch and ends (proc.c:614-616) -/
  | eof (s : Running) (p q : PI) (hp : isProc prefork p) (hp0 : p.1 ≠ pParent) (ha : s.alive p = true) (hc : (chanOf prefork p q).isSome)
      (hq : s.alive q = false ∨ (q = (pParent, 0) ∧ s.closing = true)) : Internal prefork s (s.stop p)
  /-- proc.c:641-646 in the main process, which leaves event_dispatch for main_shutdown (gmid.c:406-407) -/
  | mainEof (s : Running) (q : PI) (ha : s.alive (pParent, 0) = true) (hc : s.closing = false) (hch : (chanOf prefork (pParent, 0) q).isSome)
      (hd : s.alive q = false) : Internal prefork s { s with closing := true }
  /-- gmid.c:528-533, main_sig_handler: SIGCHLD, for the parent of the process -/
  | sigchld (s : Running) (q : PI) (hq : isProc prefork q) (hq0 : q.1 ≠ pParent) (hf : s.daemon = false) (ha : s.alive (pParent, 0) = true)
      (hc : s.closing = false) (hd : s.alive q = false) : Internal prefork s { s with closing := true }
  /-- proc.c:402-425 and gmid.c:605: waitpid found no more children, or, as a daemon, has none -/
  | exit (s : Running) (ha : s.alive (pParent, 0) = true) (hc : s.closing = true)
      (hd : s.daemon = true ∨ ∀ q, isProc prefork q → q.1 ≠ pParent → s.alive q = false) : Internal prefork s (s.stop (pParent, 0))

/-- what happens from the outside -/
inductive External (prefork : Nat) : Running → Running → Prop where
  /-- a process crashes or is killed; or a child gets SIGTERM or SIGINT (proc.c:521-524) -/
  | crash (s : Running) (p : PI) (hp : isProc prefork p) (ha : s.alive p = true) : External prefork s (s.stop p)
  /-- gmid.c:531-533: SIGTERM or SIGINT for the main process -/
  | term (s : Running) (ha : s.alive (pParent, 0) = true) (hc : s.closing = false) : External prefork s { s with closing := true }

end Gmid

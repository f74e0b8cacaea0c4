import Verif.Model.Imsg

/-!
# Two processes and the event loop: proc_dispatch and the events of the socket that connects them (proc.c)

The channels are those of Model/Imsg.lean, one for each direction.  The two processes are `false` and `true`.  What the callback of a
process does with a message is a parameter: it changes the process and composes messages for the peer, or it is fatal (the messages that
no callback takes, proc.c:670-695, are a part of it).
-/

set_option autoImplicit false

namespace Gmid

/-- a process, with the pending events of its struct imsgev for the peer -/
structure Side (σ : Type) where
  st : σ
  rdEv : Bool := true
  wrEv : Bool := false
  /-- event_dispatch has not returned and there was no fatal error -/
  alive : Bool := true

/-- the socket between two processes; `chan s` is what process `s` sends to the other one -/
structure Link (σ : Type) where
  chan : Bool → Chan := fun _ => {}
  side : Bool → Side σ

/-- the callback: `none` is fatal -/
abbrev Handler (σ : Type) := Bool → σ → IMsg → Option (σ × List IMsg)

section
variable {σ : Type} (bar : Barrier) (pid : Bool → Nat) (h : Handler σ)

def Link.setChan (l : Link σ) (s : Bool) (c : Chan) : Link σ := { l with chan := fun x => if x = s then c else l.chan x }

def Link.setSide (l : Link σ) (s : Bool) (p : Side σ) : Link σ := { l with side := fun x => if x = s then p else l.side x }

/-- proc.c:711-726, imsg_event_add: the handler is never NULL (proc.c:346).  `iev->events` starts with EV_READ, and EV_WRITE is added when
imsgbuf_queuelen (compat/imsg.c:100-104) is not 0. -/
def eventAdd (s : Bool) (l : Link σ) : Link σ :=
  l.setSide s { l.side s with rdEv := true, wrEv := decide ((l.chan s).queue ≠ []) }

/-- the process ends: fatal, or event_loopexit and proc_shutdown -/
def stop (s : Bool) (l : Link σ) : Link σ := l.setSide s { l.side s with alive := false }

/-- one step of a channel; a failing read is fatal for the process `who` -/
def onChan (who dir : Bool) (a : ChanAct) (l : Link σ) : Link σ :=
  match chanStep bar (pid dir) (l.chan dir) a with
  | some c => l.setChan dir c
  | none => stop who l

/-- proc.c:728-739, imsg_compose_event (and imsg_composev_event, 741-752): a message that is too long is refused.  The length is below
65536 by its type. -/
def composeEvent (s : Bool) (m : IMsg) (l : Link σ) : Link σ :=
  match imsgCompose (pid s) m with
  | none => l
  | some _ => eventAdd s (onChan bar pid s s (.compose m) l)

/-- the messages that a callback composes, one after the other -/
def composeEvents (s : Bool) : List IMsg → Link σ → Link σ
  | [], l => l
  | m :: r, l => composeEvents s r (composeEvent bar pid s m l)

/-- proc.c:658-697, the loop of proc_dispatch.  The number bounds its iterations: there are as many messages as imsg_get has to offer
(the callback does not add to them).  imsg_get fails on a buffer shorter than a header, which is fatal. -/
def getLoop (s : Bool) : Nat → Link σ → Link σ
  | 0, l => l
  | n + 1, l =>
    match imsgGet (l.chan (!s)).rd with
    | none => stop s l
    | some (m, _) =>
      let l := onChan bar pid s (!s) .get l
      match h s (l.side s).st m with
      | none => stop s l
      | some (st, ms) => getLoop s n (composeEvents bar pid s ms (l.setSide s { l.side s with st := st }))

/-- what the event loop reports to a process, with the results of the system calls: for EV_READ the number of bytes received at most (0:
EAGAIN), for EV_WRITE the number of bytes sent at most (0: EAGAIN or ENOBUFS) -/
structure Ready where
  rd : Option Nat := none
  wr : Option Nat := none
  deriving Repr, DecidableEq

/-- proc.c:638-647, EV_READ in proc_dispatch -/
def readPart (s : Bool) (rd : Option Nat) (l : Link σ) : Link σ :=
  match rd with
  | none => l
  | some k => onChan bar pid s (!s) (.read k) l

/-- proc.c:649-657, EV_WRITE in proc_dispatch -/
def writePart (s : Bool) (wr : Option Nat) (l : Link σ) : Link σ :=
  match wr with
  | none => l
  | some n => onChan bar pid s s (.write n) l

/-- proc.c:622-700, proc_dispatch.  libevent has removed the event (it has no EV_PERSIST) before it calls this. -/
def procDispatch (s : Bool) (ev : Ready) (l : Link σ) : Link σ :=
  let l := l.setSide s { l.side s with rdEv := false, wrEv := false }
  let l := readPart bar pid s ev.rd l
  if !(l.side s).alive then l
  else
    let l := writePart bar pid s ev.wr l
    let l := getLoop bar pid h s (l.chan (!s)).rd.rbufs.length l
    if !(l.side s).alive then l else eventAdd s l

/-- what happens, in any order: an event of the socket is reported to a process; the process composes a message for some other reason; its
peer is gone (imsgbuf_read gives 0, proc.c:640-645, or imsgbuf_write fails, proc.c:648-656) -/
inductive LinkEv where
  | ready (s : Bool) (ev : Ready)
  | compose (s : Bool) (m : IMsg)
  | gone (s : Bool)
  deriving Repr, DecidableEq

/-- one of these.  Only what is pending is reported, to a process that runs. -/
def linkStep (e : LinkEv) (l : Link σ) : Link σ :=
  match e with
  | .ready s ev =>
    let ev : Ready := { rd := if (l.side s).rdEv then ev.rd else none, wr := if (l.side s).wrEv then ev.wr else none }
    if (l.side s).alive && (ev.rd.isSome || ev.wr.isSome) then procDispatch bar pid h s ev l else l
  | .compose s m => if (l.side s).alive then composeEvent bar pid s m l else l
  | .gone s => if (l.side s).alive && (l.side s).rdEv then stop s l else l

/-- a history -/
def linkRun : List LinkEv → Link σ → Link σ
  | [], l => l
  | e :: r, l => linkRun r (linkStep bar pid h e l)

end

/-- proc.c:284-316 and 348-351, proc_accept with proc_setup: the events of a new socket: EV_READ -/
def linkNew {σ : Type} (st : Bool → σ) : Link σ := { side := fun s => { st := st s } }

end Gmid

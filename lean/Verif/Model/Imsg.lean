import Verif.Model.Basic

/-!
# Model of compat/imsg.c and compat/imsg-buffer.c

Both ends of a channel between two gmid processes (a SOCK_STREAM socketpair with IMSG_ALLOW_FDPASS, proc.c:198-201,
312-314).  A struct ibuf is the list of its bytes between rpos and wpos; memory is never exhausted.
The machine is little-endian with a 4 byte pid_t, so that struct imsg_hdr has 16 bytes.
-/

set_option autoImplicit false

namespace Gmid

/-- what a caller of imsg_compose(3) gives and of imsg_get(3) gets: type, id, pid, data and descriptor -/
structure IMsg where
  ty : Nat
  peer : Nat
  pid : Nat
  data : Bytes
  fd : Option Nat
  deriving Repr, DecidableEq

/-- IBUF_READ_SIZE, MAX_IMSGSIZE, IMSG_HEADER_SIZE (compat/imsg.h:26-28) and IOV_MAX -/
abbrev ibufReadSize : Nat := 65535
abbrev maxImsgSize : Nat := 16384
abbrev hdrSize : Nat := 16
abbrev iovMax : Nat := 1024

/-- a uint32_t in memory -/
def le32 (n : Nat) : Bytes :=
  [UInt8.ofNat n, UInt8.ofNat (n / 256), UInt8.ofNat (n / 65536), UInt8.ofNat (n / 16777216)]

/-- and back -/
def rd32 : Bytes → Nat
  | a :: b :: c :: d :: _ => a.toNat + 256 * b.toNat + 65536 * c.toNat + 16777216 * d.toNat
  | _ => 0

/-- struct imsg_hdr (compat/imsg.h:53-58) -/
def encHdr (ty len peer pid : Nat) : Bytes := le32 ty ++ le32 len ++ le32 peer ++ le32 pid

/-- compat/imsg.c:182-199 and 292-337, imsg_compose (imsg_create, imsg_add, ibuf_fd_set, imsg_close): the buffer
to enqueue.  `mypid` is imsgbuf->pid.  imsg_composev is the same with the concatenation of its pieces. -/
def imsgCompose (mypid : Nat) (m : IMsg) : Option (Bytes × Option Nat) :=
  let datalen := m.data.length + hdrSize
  if datalen > maxImsgSize then none
  else
    let pid := if m.pid = 0 then mypid else m.pid
    some (encHdr m.ty datalen m.peer pid ++ m.data, m.fd)

/-- compat/imsg-buffer.c:699-709, msgbuf_write: the buffers of one sendmsg(2) -/
def gather : List (Bytes × Option Nat) → List (Bytes × Option Nat)
  | [] => []
  | b :: r => b :: (r.take (iovMax - 1)).takeWhile fun x => x.2.isNone

/-- compat/imsg-buffer.c:950-966, msgbuf_drain -/
def drain : List (Bytes × Option Nat) → Nat → List (Bytes × Option Nat)
  | [], _ => []
  | b :: r, n =>
    if n = 0 then b :: r
    else if n ≥ b.1.length then drain r (n - b.1.length)
    else (b.1.drop n, b.2) :: r

/-- the socket: the bytes in flight; a descriptor is attached to the first byte of the sendmsg(2) that carried it -/
abbrev Wire := List (UInt8 × Option Nat)

/-- the bytes accepted by one sendmsg(2) -/
def onWire : Bytes → Option Nat → Wire
  | [], _ => []
  | c :: r, fd => (c, fd) :: r.map fun x => (x, none)

/-- compat/imsg-buffer.c:682-749, msgbuf_write when the kernel accepts up to `n` of the bytes offered (0: EAGAIN).
Closing the sender's copy of the descriptor is not modelled. -/
def msgbufWrite (n : Nat) (q : List (Bytes × Option Nat)) (w : Wire) : List (Bytes × Option Nat) × Wire :=
  match q with
  | [] => ([], w)
  | b :: r =>
    let bytes := ((gather q).map fun x => x.1).flatten
    let k := min n bytes.length
    if k = 0 then (q, w)
    else (drain ((b.1, none) :: r) k, w ++ onWire (bytes.take k) b.2)

/-- How receives are cut at descriptors. -/
inductive Barrier where
  /-- nothing before the byte with the descriptor is returned together with it -/
  | before
  /-- unix(7) on Linux: data before the byte with the descriptor is returned together with it, and the descriptor too -/
  | after
  deriving Repr, DecidableEq

/-- the longest run a receive may return: up to the next (`before`) or the second (`after`) descriptor -/
def runLen (s : Wire) : Nat := (s.takeWhile fun x => x.2.isNone).length

def recvMax (bar : Barrier) (w : Wire) : Nat :=
  match w with
  | [] => 0
  | _ :: r =>
    match bar with
    | .before => 1 + runLen r
    | .after => let k := runLen w; k + (match w.drop k with | [] => 0 | _ :: r => 1 + runLen r)

/-- the reader's half of struct msgbuf: rbuf[0..roff), rpmsg (size, bytes so far, descriptor), rbufs, and the
descriptors it has closed -/
structure Reader where
  rbuf : Bytes := []
  rpmsg : Option (Nat × Bytes × Option Nat) := none
  rbufs : List (Bytes × Option Nat) := []
  closed : List Nat := []
  deriving Repr, DecidableEq

/-- compat/imsg.c:345-359, imsg_parse_hdr -/
def parseHdr (h : Bytes) : Option Nat :=
  let len := rd32 (h.drop 4)
  if len < hdrSize ∨ maxImsgSize < len then none else some len

/-- compat/imsg-buffer.c:765-802, the loop of ibuf_read_process; `none` is its -1.  `fuel` bounds the number of
iterations (each consumes at least a byte); running out of it is `none` too. -/
def readLoop : Nat → Option Nat → Reader → Option Reader
  | 0, _, _ => none
  | fuel + 1, fd, r =>
    let body (fd : Option Nat) (mx : Nat) (d : Bytes) (mfd : Option Nat) : Option Reader :=
      let sz := if mx - d.length ≤ r.rbuf.length then mx - d.length else r.rbuf.length
      let d' := d ++ r.rbuf.take sz
      let rest := r.rbuf.drop sz
      let r' : Reader :=
        if mx - d'.length = 0 then { r with rbuf := rest, rpmsg := none, rbufs := r.rbufs ++ [(d', mfd)] }
        else { r with rbuf := rest, rpmsg := some (mx, d', mfd) }
      if rest.length > 0 then readLoop fuel fd r' else some r'
    match r.rpmsg with
    | some (mx, d, mfd) => body fd mx d mfd
    | none =>
      if r.rbuf.length < hdrSize then some { r with closed := r.closed ++ fd.toList }
      else
        match parseHdr (r.rbuf.take hdrSize) with
        | none => none
        | some sz => body none sz [] fd

/-- compat/imsg-buffer.c:751-813, ibuf_read_process -/
def readProcess (fd : Option Nat) (r : Reader) : Option Reader :=
  match r.rpmsg, fd with
  | some _, some f => readLoop (r.rbuf.length + 1) none { r with closed := r.closed ++ [f] }
  | _, _ => readLoop (r.rbuf.length + 1) fd r

/-- compat/imsg-buffer.c:846-921, msgbuf_read when the kernel gives up to `k` bytes (none: EAGAIN).  A control message
carries one descriptor, as msgbuf_write sends them.  With its leftovers (less than a header) in place the buffer has room. -/
def msgbufRead (bar : Barrier) (k : Nat) (w : Wire) (r : Reader) : Option (Wire × Reader) :=
  let n := min (min k (ibufReadSize - r.rbuf.length)) (recvMax bar w)
  if n = 0 then some (w, r)
  else
    let got := w.take n
    let fd := got.findSome? fun x => x.2
    match readProcess fd { r with rbuf := r.rbuf ++ got.map fun x => x.1 } with
    | none => none
    | some r' => some (w.drop n, r')

/-- compat/imsg.c:106-125, imsg_get with imsg_get_type, imsg_get_id, imsg_get_pid, imsg_get_fd and the data -/
def imsgGet (r : Reader) : Option (IMsg × Reader) :=
  match r.rbufs with
  | [] => none
  | (b, fd) :: rest =>
    if b.length < hdrSize then none
    else some ({ ty := rd32 b, peer := rd32 (b.drop 8), pid := rd32 (b.drop 12), data := b.drop hdrSize, fd := fd }, { r with rbufs := rest })

/-- a channel: the writer's queue, the socket, the reader, and (history) what was successfully composed and what was got -/
structure Chan where
  queue : List (Bytes × Option Nat) := []
  wire : Wire := []
  rd : Reader := {}
  sent : List IMsg := []
  got : List IMsg := []
  deriving Repr, DecidableEq

inductive ChanAct where
  | compose (m : IMsg)
  | write (n : Nat)
  | read (k : Nat)
  | get
  deriving Repr, DecidableEq

/-- one step of either process; `none`: a read failed, the process exits -/
def chanStep (bar : Barrier) (mypid : Nat) (c : Chan) : ChanAct → Option Chan
  | .compose m =>
    match imsgCompose mypid m with
    | none => some c
    | some b => some { c with queue := c.queue ++ [b], sent := c.sent ++ [m] }
  | .write n => let x := msgbufWrite n c.queue c.wire; some { c with queue := x.1, wire := x.2 }
  | .read k =>
    match msgbufRead bar k c.wire c.rd with
    | none => none
    | some (w, r) => some { c with wire := w, rd := r }
  | .get =>
    match imsgGet c.rd with
    | none => some c
    | some (m, r) => some { c with rd := r, got := c.got ++ [m] }

def chanRun (bar : Barrier) (mypid : Nat) : List ChanAct → Chan → Option Chan
  | [], c => some c
  | a :: r, c =>
    match chanStep bar mypid c a with
    | none => none
    | some c => chanRun bar mypid r c

end Gmid

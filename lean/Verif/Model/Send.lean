import Verif.Model.Proc

/-!
# Model of how the main process sends to all instances of a process (proc.c, config.c), with its descriptors

Messages are any type; an open file is a number.  Nothing fails but the use of a descriptor that is not open; files that cannot be opened are fatal.  The kernel
picks descriptors with `alloc`, which is given those in use.
-/

set_option autoImplicit false

namespace Gmid

variable {M : Type}

/-- the descriptors of the main process and their files, the queue to every instance of every process, and what went through it: a message and the file that
came with it -/
structure Snd (M : Type) where
  fds : List (Nat × Nat)
  q : PI → List (M × Option Nat)
  out : PI → List (M × Option Nat)

def Snd.file (s : Snd M) (fd : Nat) : Option Nat := (s.fds.find? fun x => x.1 == fd).map (·.2)

/-- close(2) -/
def Snd.close (s : Snd M) (fd : Nat) : Snd M := { s with fds := s.fds.filter fun x => x.1 != fd }

/-- open(2), and socket(2): the new descriptor -/
def Snd.openFile (alloc : List Nat → Nat) (s : Snd M) (file : Nat) : Snd M × Nat :=
  let fd := alloc (s.fds.map (·.1))
  ({ s with fds := s.fds ++ [(fd, file)] }, fd)

/-- dup(2); `none` is EBADF -/
def Snd.dup (alloc : List Nat → Nat) (s : Snd M) (fd : Nat) : Option (Snd M × Nat) := (s.file fd).map fun f => s.openFile alloc f

/-- proc.c:754-765, proc_range; -1 is `none` -/
def procRange (inst : Nat → Nat) (id : Nat) : Option Nat → Nat × Nat
  | none => (0, inst id)
  | some n => (n, n + 1)

/-- compat/imsg.c, imsg_compose, to one channel -/
def Snd.push (s : Snd M) (p : PI) (m : M) (fd : Option Nat) : Snd M := { s with q := fun x => if x = p then s.q x ++ [(m, fd)] else s.q x }

/-- proc.c:774-778, the loop of proc_compose_imsg, `k` more from `n` on -/
def composeLoop (id : Nat) (m : M) (fd : Option Nat) : Nat → Nat → Snd M → Snd M
  | 0, _, s => s
  | k + 1, n, s => composeLoop id m fd k (n + 1) (s.push (id, n) m fd)

/-- proc.c:767-781, proc_compose_imsg -/
def composeImsg (inst : Nat → Nat) (s : Snd M) (id : Nat) (n : Option Nat) (m : M) (fd : Option Nat) : Snd M :=
  let r := procRange inst id n
  composeLoop id m fd (r.2 - r.1) r.1 s

/-- compat/imsg-buffer.c:686-750, msgbuf_write until the queue is empty (imsgbuf_flush): a descriptor is closed once it is sent; `false`: it failed and the
rest stays -/
def flushQueue (p : PI) : List (M × Option Nat) → Snd M → Snd M × Bool
  | [], s => ({ s with q := fun x => if x = p then [] else s.q x }, true)
  | (m, none) :: r, s => flushQueue p r { s with out := fun x => if x = p then s.out x ++ [(m, none)] else s.out x }
  | (m, some fd) :: r, s =>
    match s.file fd with
    | none => ({ s with q := fun x => if x = p then (m, some fd) :: r else s.q x }, false)
    | some f => flushQueue p r (Snd.close { s with out := fun x => if x = p then s.out x ++ [(m, some f)] else s.out x } fd)

/-- proc.c:838-845, the loop of proc_flush_imsg; it ends at the first failure, which is not reported -/
def flushLoop (id : Nat) : Nat → Nat → Snd M → Snd M
  | 0, _, s => s
  | k + 1, n, s =>
    match flushQueue (id, n) (s.q (id, n)) s with
    | (s, true) => flushLoop id k (n + 1) s
    | (s, false) => s

/-- proc.c:831-848, proc_flush_imsg -/
def flushImsg (inst : Nat → Nat) (s : Snd M) (id : Nat) (n : Option Nat) : Snd M :=
  let r := procRange inst id n
  flushLoop id (r.2 - r.1) r.1 s

/-- config.c:171-179, the loop of config_send_file; `none`: dup failed, which is fatal -/
def sendFileLoop (inst : Nat → Nat) (alloc : List Nat → Nat) (id : Nat) (m : M) (fd : Option Nat) : Nat → Nat → Snd M → Option (Snd M)
  | 0, _, s => some s
  | k + 1, n, s =>
    match fd with
    | none => sendFileLoop inst alloc id m fd k (n + 1) (composeImsg inst s id (some n) m none)
    | some x =>
      match s.dup alloc x with
      | none => none
      | some (s, d) => sendFileLoop inst alloc id m fd k (n + 1) (composeImsg inst s id (some n) m (some d))

/-- config.c:163-191, config_send_file -/
def sendFile (inst : Nat → Nat) (alloc : List Nat → Nat) (s : Snd M) (id : Nat) (m : M) (fd : Option Nat) : Option (Snd M) :=
  let r := procRange inst id none
  match sendFileLoop inst alloc id m fd r.2 0 s with
  | none => none
  | some s => some (flushImsg inst (match fd with | some x => s.close x | none => s) id none)

/-- config.c:193-205, config_open_send -/
def openSendFd (inst : Nat → Nat) (alloc : List Nat → Nat) (s : Snd M) (id : Nat) (m : M) (file : Nat) : Option (Snd M) :=
  let (s, fd) := s.openFile alloc file
  sendFile inst alloc s id m (some fd)

/-- config.c:207-236, config_send_kp -/
def sendKpFds (inst : Nat → Nat) (alloc : List Nat → Nat) (privsep : Bool) (s : Snd M) (certMsg keyMsg : M) (cert key : Nat) : Option (Snd M) :=
  let (s, fd) := s.openFile alloc cert
  match s.dup alloc fd with
  | none => none
  | some (s, d) =>
    match sendFile inst alloc s pServer certMsg (some fd) with
    | none => none
    | some s =>
      match (if privsep then sendFile inst alloc s pCrypto certMsg (some d) else some s) with
      | none => none
      | some s => openSendFd inst alloc s (if privsep then pCrypto else pServer) keyMsg key

/-- what config_send consists of -/
inductive SendCmd (M : Type) where
  /-- proc_compose, a message without a file -/
  | compose (id : Nat) (m : M)
  /-- config_send_file, with an open file (a listening socket, a CA) or without one -/
  | file (id : Nat) (m : M) (file : Option Nat)
  /-- config_open_send -/
  | openSend (id : Nat) (m : M) (file : Nat)
  /-- config_send_kp -/
  | kp (certMsg keyMsg : M) (cert key : Nat)
  /-- proc_flush_imsg -/
  | flush (id : Nat)

/-- config.c:238-284 (a socket for each address) and 287-438, one call of config_send -/
def sendCmd (inst : Nat → Nat) (alloc : List Nat → Nat) (privsep : Bool) (s : Snd M) : SendCmd M → Option (Snd M)
  | .compose id m => some (composeImsg inst s id none m none)
  | .file id m none => sendFile inst alloc s id m none
  | .file id m (some f) =>
    let (s, fd) := s.openFile alloc f
    sendFile inst alloc s id m (some fd)
  | .openSend id m f => openSendFd inst alloc s id m f
  | .kp cm km c k => sendKpFds inst alloc privsep s cm km c k
  | .flush id => some (flushImsg inst s id none)

/-- a sequence of these calls -/
def sendCmds (inst : Nat → Nat) (alloc : List Nat → Nat) (privsep : Bool) : List (SendCmd M) → Snd M → Option (Snd M)
  | [], s => some s
  | c :: r, s =>
    match sendCmd inst alloc privsep s c with
    | none => none
    | some s => sendCmds inst alloc privsep r s

end Gmid

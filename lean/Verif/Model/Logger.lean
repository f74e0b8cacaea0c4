import Verif.Model.Proc
import Verif.Model.CStr

/-!
# Model of logger.c, and of the part of gmid.c that tells the logger where to write

Descriptors are numbers and are not reused.  write(2) and syslog(3) are recorded as they are called: a failing or short write of dprintf is not
modelled, nor are failures of the system calls other than open.
-/

set_option autoImplicit false

namespace Gmid

/-- a message as a callback sees it (struct imsg): its type, its payload and the descriptor that came with it -/
structure Raw where
  type : Nat
  data : Bytes
  fd : Option Nat
  deriving Repr, DecidableEq

/-- enum imsg_type (gmid.h:375-406) -/
abbrev tLogRequest : Nat := 0
abbrev tLogAccess : Nat := 1
abbrev tLogSyslog : Nat := 2
abbrev tLogFacility : Nat := 3
abbrev tCtlProcfd : Nat := 26

/-- where a line goes: to a descriptor, or to syslog(3) with the facility given (the bytes of the int) -/
inductive LogDest where
  | file (fd : Nat)
  | syslog (facility : Bytes)
  deriving Repr, DecidableEq

/-- logger.c:39-41, the variables of the logger (an int is its four bytes, and true when one of them is not 0), its sockets, what it wrote and what it
closed -/
structure Lg where
  child : PChild
  logfd : Option Nat
  syslog : Bytes
  facility : Bytes
  out : List (LogDest × Bytes)
  closed : List Nat

/-- LOG_DAEMON, 3 << 3 -/
def logDaemon : Bytes := [24, 0, 0, 0]

/-- logger.c:39-41 -/
def lgStart (c : PChild) : Lg := { child := c, logfd := none, syslog := [1, 0, 0, 0], facility := logDaemon, out := [], closed := [] }

/-- imsg_free (compat/imsg.c:339-343) closes the descriptor nobody took -/
def Lg.free (s : Lg) (m : Raw) : Lg := { s with closed := s.closed ++ m.fd.toList }

/-- logger.c:79-104, logger_dispatch_parent; `none` is -1; imsg_get_data (compat/imsg.c:138-150) wants the exact length -/
def loggerParent (s : Lg) (m : Raw) : Option (Res Lg) :=
  if m.type = tLogFacility then some (if m.data.length = 4 then .ok ({ s with facility := m.data }.free m) else .err)
  else if m.type = tLogSyslog then some (if m.data.length = 4 then .ok ({ s with syslog := m.data }.free m) else .err)
  else if m.type = tLogAccess then some (.ok { s with closed := s.closed ++ s.logfd.toList, logfd := m.fd })
  else none

/-- logger.c:106-130, logger_dispatch_server; the last byte of the payload is overwritten with a NUL -/
def loggerServer (s : Lg) (m : Raw) : Option (Res Lg) :=
  if m.type = tLogRequest then
    some (if m.data.length = 0 then .err
      else
        let msg := cstr (m.data.take (m.data.length - 1) ++ [0])
        let o1 := match s.logfd with | some fd => [(LogDest.file fd, msg ++ [10])] | none => []
        let o2 := if s.syslog.any (· ≠ 0) then [(LogDest.syslog s.facility, msg)] else []
        .ok ({ s with out := s.out ++ o1 ++ o2 }.free m))
  else none

/-- a little-endian unsigned int -/
def u32le : Bytes → Nat
  | a :: b :: c :: d :: _ => a.toNat + 256 * b.toNat + 65536 * c.toNat + 16777216 * d.toNat
  | _ => 0

/-- proc.c:671-697, the body of the loop of proc_dispatch once there is a message; struct privsep_fd is two ints (proc.h:89-92) -/
def loggerDispatch (prefork : Nat) (s : Lg) (peer : Nat) (m : Raw) : Res Lg :=
  match (if peer = pParent then loggerParent s m else loggerServer s m) with
  | some r => r
  | none =>
    if m.type = tCtlProcfd then
      if m.data.length ≠ 8 then .err
      else (procAccept prefork s.child m.fd (u32le m.data) (u32le (m.data.drop 4))).bind fun c => .ok { s with child := c }
    else .err

/-- several messages, each with its sender -/
def loggerRun (prefork : Nat) (s : Lg) : List (Nat × Raw) → Res Lg
  | [] => .ok s
  | (p, m) :: r => (loggerDispatch prefork s p m).bind fun s => loggerRun prefork s r

/-! ## The main process -/

/-- the fields of struct conf that matter here (gmid.h:258-268) -/
structure LogConf where
  chroot : Bytes
  access : Option Bytes
  syslog : Bytes
  facility : Bytes
  deriving Repr, DecidableEq

/-- gmid.c:419-422, the path in main_send_logfd; `none` when it does not fit in PATH_MAX bytes -/
def logPath (c : LogConf) (a : Bytes) : Option Bytes :=
  let p := c.chroot ++ (if c.chroot = [] then [] else b%"/") ++ a
  if p.length ≥ 4096 then none else some p

/-- gmid.c:412-443, main_send_logfd: the messages sent to the logger; `op` is open(2) with O_WRONLY|O_CREAT|O_APPEND -/
def mainSendLogfd (op : Bytes → Option Nat) (c : LogConf) : List Raw :=
  [{ type := tLogAccess, data := [], fd := c.access.bind fun a => (logPath c a).bind op },
   { type := tLogFacility, data := c.facility, fd := none },
   { type := tLogSyslog, data := c.syslog, fd := none }]

/-- signals of the main process, with what open(2) does then; SIGHUP finds a reload still in progress, or a file that parse_conf accepts or does not,
either of which sets up the configuration given, or part of it -/
inductive LogEv where
  | usr1 (op : Bytes → Option Nat)
  | hupBusy
  | hupOk (op : Bytes → Option Nat) (c : LogConf)
  | hupFail (c : LogConf)

/-- gmid.c:483-509 (main_reload) and 511-541 (main_sig_handler), as far as the logger is concerned: the configuration and the messages to the logger -/
def logEv (c : LogConf) : LogEv → LogConf × List Raw
  | .usr1 op => (c, mainSendLogfd op c)
  | .hupBusy => (c, [])
  | .hupOk op c' => (c', mainSendLogfd op c')
  | .hupFail c' => (c', [])

/-- several of them -/
def logEvs (c : LogConf) : List LogEv → LogConf × List Raw
  | [] => (c, [])
  | e :: r => let (c', m) := logEv c e; let (c'', m') := logEvs c' r; (c'', m ++ m')

end Gmid

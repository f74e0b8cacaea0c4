import Verif.Model.Exec

/-!
# Model of sandbox.c, with landlock

The branch for OpenBSD is four calls to pledge, and the one without a sandbox is empty.
-/

set_option autoImplicit false

namespace Gmid

/-- linux/landlock.h and sandbox.c:95-103: the rights of LANDLOCK_ACCESS_FS_ -/
inductive Right where
  | execute | writeFile | readFile | readDir | removeDir | removeFile | makeChar | makeDir | makeReg | makeSock | makeFifo | makeBlock | makeSym
  | refer | truncate
  deriving Repr, DecidableEq

/-- the errno a call fails with -/
inductive LErrno where
  | enosys | eopnotsupp | einval | other
  deriving Repr, DecidableEq

/-- the kernel: `none` is success.  `abi` is the version of landlock it has, which is from 1 on, or the errno when it has none. -/
structure LandEnv where
  prctl : Option LErrno
  abi : Except LErrno Nat
  create : Option LErrno
  openPath : Bytes → Option LErrno
  addRule : Option LErrno
  restrict : Option LErrno

/-- linux/Documentation/userspace-api/landlock.rst: the rights a version of landlock knows.  Those of later versions than 3 are not used. -/
def abiRights (abi : Nat) : List Right :=
  [.execute, .writeFile, .readFile, .readDir, .removeDir, .removeFile, .makeChar, .makeDir, .makeReg, .makeSock, .makeFifo, .makeBlock, .makeSym]
    ++ (if abi ≥ 2 then [.refer] else []) ++ (if abi ≥ 3 then [.truncate] else [])

/-- a ruleset: the rights it handles, and those it gives below a path -/
structure Ruleset where
  handled : List Right
  rules : List (Bytes × List Right)
  deriving Repr, DecidableEq

/-- landlock_state, the ruleset of landlock_fd, and the ruleset that is in force in the process -/
structure LandState where
  state : Int := 0
  fd : Ruleset := { handled := [], rules := [] }
  domain : Option Ruleset := none
  deriving Repr, DecidableEq

/-- sandbox.c:112-156, landlock_init.  The system call fails with EINVAL when it does not know one of the rights. -/
def landlockInit (k : LandEnv) (s : LandState) : LandState × Except LErrno Ruleset :=
  let h : List Right :=
    [.execute, .readFile, .readDir, .writeFile, .removeDir, .removeFile, .makeChar, .makeDir, .makeReg, .makeSock, .makeFifo, .makeBlock, .makeSym,
     .refer, .truncate]
  match k.prctl with
  | some e => (s, .error e)
  | none =>
    match k.abi with
    | .error e => (s, .error e)
    | .ok abi =>
      let h := if abi < 2 then h.filter (· ≠ .refer) else h
      let h := if abi < 3 then h.filter (· ≠ .truncate) else h
      let s := { s with state := 1 }
      if h.all (abiRights abi).contains then
        match k.create with
        | some e => (s, .error e)
        | none => (s, .ok { handled := h, rules := [] })
      else (s, .error .einval)

/-- sandbox.c:158-175, landlock_lock; `none` is 0 -/
def landlockLock (k : LandEnv) (s : LandState) : LandState × Option LErrno :=
  match k.restrict with
  | some e => ({ s with state := -1 }, some e)
  | none => ({ s with state := 2, domain := some s.fd }, none)

/-- sandbox.c:186-223, in landlock_unveil, when the state is not 0; `none` is 0 -/
def landlockUnveil' (k : LandEnv) (s : LandState) (path permissions : Option Bytes) : LandState × Option LErrno :=
  if s.state = -1 then (s, none)
  else
    match path, permissions with
    | none, none => landlockLock k s
    | some path, some permissions =>
      if s.state ≠ 1 then (s, some .einval)
      else if permissions = b%"r" then
        match k.openPath path with
        | some e => (s, some e)
        | none =>
          match k.addRule with
          | some e => (s, some e)
          | none => ({ s with fd := { s.fd with rules := s.fd.rules ++ [(path, [.readFile, .readDir])] } }, none)
      else (s, none)
    | _, _ => (s, some .einval)

/-- sandbox.c:177-224, landlock_unveil; `none` is 0 -/
def landlockUnveil (k : LandEnv) (s : LandState) (path permissions : Option Bytes) : LandState × Option LErrno :=
  if s.state = 0 then
    match landlockInit k s with
    | (s, .error e) =>
      let s := { s with state := -1 }
      if e = .enosys ∨ e = .eopnotsupp then (s, none) else (s, some e)
    | (s, .ok r) => landlockUnveil' k { s with fd := r } path permissions
  else landlockUnveil' k s path permissions

/-- sandbox.c:232-240, sandbox_server_process; `none`: fatal -/
def sandboxServer (k : LandEnv) (s : LandState) : Option LandState :=
  match landlockUnveil k s (some b%"/") (some b%"r") with
  | (_, some _) => none
  | (s, none) =>
    match landlockUnveil k s none none with
    | (_, some _) => none
    | (s, none) => some s

/-- sandbox.c:242-248, sandbox_crypto_process; `none`: fatal -/
def sandboxCrypto (k : LandEnv) (s : LandState) : Option LandState :=
  match landlockUnveil k s none none with
  | (_, some _) => none
  | (s, none) => some s

/-- sandbox.c:250-256, sandbox_logger_process; `none`: fatal -/
def sandboxLogger (k : LandEnv) (s : LandState) : Option LandState :=
  match landlockUnveil k s none none with
  | (_, some _) => none
  | (s, none) => some s

/-- proc.c:611-612, and server.c:1578, crypto.c:77 and logger.c:68: what run does; `none`: fatal -/
def initSandbox (k : LandEnv) (id : Nat) : Option LandState :=
  if id = pServer then sandboxServer k {}
  else if id = pCrypto then sandboxCrypto k {}
  else if id = pLogger then sandboxLogger k {}
  else none

/-- `path`, absolute, is `dir` or below it -/
def pathBelow (dir path : Bytes) : Bool := dir = b%"/" || path = dir || (dir ++ b%"/").isPrefixOf path

/-- the kernel: whether landlock lets the process use `r` on `path`.  Without LANDLOCK_ACCESS_FS_REFER that right is always denied. -/
def landPermits (s : LandState) (r : Right) (path : Bytes) : Bool :=
  match s.domain with
  | none => true
  | some d =>
    if d.handled.contains r then d.rules.any fun (dir, rs) => pathBelow dir path && rs.contains r
    else decide (r ≠ .refer)

end Gmid

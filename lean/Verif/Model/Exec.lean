import Verif.Model.Proc
import Verif.Model.Compat
import Verif.Model.Parse

/-!
# Model of how the processes of gmid are started: main, proc_exec and proc_run

The arguments of a program are C strings.  getopt_long is the one of POSIX and the BSDs, which stops at the first argument that is not an option.
-/

set_option autoImplicit false

namespace Gmid

/-- gmid.c:57, opts: the letters, and whether they take an argument -/
def gmidOpts : List (UInt8 × Bool) :=
  [(c%'c', true), (c%'D', true), (c%'f', false), (c%'I', true), (c%'J', true), (c%'h', false), (c%'n', false), (c%'P', true), (c%'T', true),
   (c%'U', true), (c%'V', false), (c%'v', false), (c%'X', true)]

/-- getopt_long(3): the letters of one argument; when the last one needs an argument that is not there, it -/
def optCluster : Bytes → List (UInt8 × Bytes) × Option UInt8
  | [] => ([], none)
  | c :: r =>
    match gmidOpts.lookup c with
    | none => let (os, n) := optCluster r; ((c%'?', []) :: os, n)
    | some false => let (os, n) := optCluster r; ((c, []) :: os, n)
    | some true => if r ≠ [] then ([(c, r)], none) else ([], some c)

/-- getopt_long(3): an argument that starts with `--`; the names are those of gmid.c:59-63, or the start of one -/
def optLong (name : Bytes) : UInt8 × Bytes :=
  if name ≠ [] ∧ name.isPrefixOf b%"help" then (c%'h', [])
  else if name ≠ [] ∧ name.isPrefixOf b%"version" then (c%'V', [])
  else (c%'?', [])

/-- getopt_long(3): the options in their order, `?` for those that are wrong, and the arguments that are left -/
def getopt : List Bytes → List (UInt8 × Bytes) × List Bytes
  | [] => ([], [])
  | a :: rest =>
    if a = b%"--" then ([], rest)
    else if a.take 2 = b%"--" then let (os, r) := getopt rest; (optLong (a.drop 2) :: os, r)
    else if a.take 1 = b%"-" ∧ a ≠ b%"-" then
      match optCluster (a.drop 1) with
      | (os, none) => let (os', r) := getopt rest; (os ++ os', r)
      | (os, some c) =>
        match rest with
        | [] => (os ++ [(c%'?', [])], [])
        | v :: rest => let (os', r) := getopt rest; (os ++ (c, v) :: os', r)
    else ([], a :: rest)

/-- the outcome of a piece of main: it goes on, or the process exits with this status -/
inductive MStep (α : Type) where
  | exit (status : Nat)
  | go (a : α)
  deriving Repr, DecidableEq

/-- the variables of main and those it sets from the options -/
structure MainOpts where
  config : Bytes
  syms : List Sym := []
  debug : Bool := false
  inst : Int := 0
  nprocs : Int := 0
  conftest : Nat := 0
  pidfile : Option Bytes := none
  title : Option Bytes := none
  procId : Nat := pParent
  user : Option Bytes := none
  verbose : Bool := false
  chroot : Option Bytes := none
  deriving Repr, DecidableEq

/-- utils.c:79-95, absolutify_path; `wd` is the working directory -/
def absolutify (wd path : Bytes) : Bytes := if path.take 1 = b%"/" then path else wd ++ b%"/" ++ path

/-- gmid.c:51-55, the table procs: title and id -/
def procTable : List (Bytes × Nat) := [(b%"server", pServer), (b%"crypto", pCrypto), (b%"logger", pLogger)]

/-- proc.c:58-73, proc_getid -/
def procGetid (name : Bytes) : Nat :=
  match procTable.find? (fun p => decide (p.1 = name)) with
  | some p => p.2
  | none => procMax

/-- gmid.c:254-309, the body of the loop over the options; usage() itself only prints (gmid.c:73-80) -/
def mainOpt (wd : Bytes) (o : MainOpts) (x : UInt8 × Bytes) : MStep MainOpts :=
  let (c, arg) := x
  if c = c%'c' then .go { o with config := absolutify wd arg }
  else if c = c%'D' then
    match cmdlineSymset o.syms arg with
    | none => .exit 1
    | some s => .go { o with syms := s }
  else if c = c%'f' then .go { o with debug := true }
  else if c = c%'h' then .exit 0
  else if c = c%'I' then
    match strtonum arg 0 16 with
    | (_, some _) => .exit 1
    | (n, none) => .go { o with inst := n }
  else if c = c%'J' then
    match strtonum arg 0 16 with
    | (_, some _) => .exit 1
    | (n, none) => .go { o with nprocs := n }
  else if c = c%'n' then .go { o with conftest := o.conftest + 1 }
  else if c = c%'P' then .go { o with pidfile := some (absolutify wd arg) }
  else if c = c%'T' then
    if procGetid arg = procMax then .exit 1 else .go { o with title := some arg, procId := procGetid arg }
  else if c = c%'U' then .go { o with user := some arg }
  else if c = c%'V' then .exit 0
  else if c = c%'v' then .go { o with verbose := true }
  else if c = c%'X' then .go { o with chroot := some arg }
  else .exit 1

/-- the loop -/
def mainOptsGo (wd : Bytes) (o : MainOpts) : List (UInt8 × Bytes) → MStep MainOpts
  | [] => .go o
  | x :: r =>
    match mainOpt wd o x with
    | .exit n => .exit n
    | .go o => mainOptsGo wd o r

/-- gmid.c:254-312, main up to the end of the options; config_path is set at first (gmid.c:70).  Arguments that are left only make it print the usage. -/
def mainArgs (wd dflt : Bytes) (argv : List Bytes) : MStep MainOpts :=
  mainOptsGo wd { config := dflt } (getopt (argv.drop 1)).1

/-- struct passwd, as far as it matters here -/
structure Passwd where
  name : Bytes
  uid : Nat
  gid : Nat
  dir : Bytes
  deriving Repr, DecidableEq

/-- the fields of struct conf that main and proc_run use -/
structure StartConf where
  user : Bytes
  chroot : Bytes
  prefork : Int
  deriving Repr, DecidableEq

/-- what a process is allowed: its root and working directory, and its ids -/
structure Cred where
  root : Bytes
  cwd : Bytes
  uid : Nat
  gid : Nat
  groups : List Nat
  deriving Repr, DecidableEq

/-- the system calls of proc_run that may fail -/
inductive SysCall where
  | chroot | chdir | setgroups | setresgid | setresuid
  deriving Repr, DecidableEq

/-- the system: the user database, geteuid(2), and which calls succeed -/
structure StartEnv where
  getpwnam : Bytes → Option Passwd
  ok : SysCall → Bool

/-- gmid.c:338-349, in main: ps_pw and the chroot directory; `none` is fatal.  conf->chroot is a char[PATH_MAX]. -/
def startPw (env : StartEnv) (cred : Cred) (c : StartConf) : Option (Option Passwd × StartConf) :=
  if c.user = [] then some (none, c)
  else if cred.uid ≠ 0 then none
  else
    match env.getpwnam c.user with
    | none => none
    | some pw => some (some pw, if c.chroot = [] then { c with chroot := pw.dir.take 4095 } else c)

/-- gmid.c:317-332, in main of a child: what the options say; `none` is fatal.  LOGIN_NAME_MAX is 256 and PATH_MAX 4096. -/
def childConf (o : MainOpts) : Option StartConf :=
  if (o.user.getD []).length ≥ 256 then none
  else if (o.chroot.getD []).length ≥ 4096 then none
  else some { user := o.user.getD [], chroot := o.chroot.getD [], prefork := o.nprocs }

/-- gmid.c:317-325, in main of the parent, once parse_conf made `c` -/
def parentConf (c : StartConf) : Option StartConf := if c.chroot ≠ [] ∧ c.user = [] then none else some c

/-- proc.c:556-587, in proc_run: the new credentials, `none` is fatal.  `chroot` is p_chroot. -/
def dropPriv (env : StartEnv) (cred : Cred) (pw : Option Passwd) (chroot : Option Bytes) : Option Cred :=
  match pw with
  | none => some cred
  | some pw =>
    let root := match chroot with | some r => r | none => pw.dir
    if !env.ok .chroot then none
    else if !env.ok .chdir then none
    else if !env.ok .setgroups then none
    else if !env.ok .setresgid then none
    else if !env.ok .setresuid then none
    else some { root := root, cwd := b%"/", uid := pw.uid, gid := pw.gid, groups := [pw.gid] }

/-- a child that got to its event loop -/
structure Started where
  id : Nat
  inst : Int
  prefork : Int
  cred : Cred
  deriving Repr, DecidableEq

/-- gmid.c:238-369 and proc.c:267-279 and 541-616, main of a child up to event_dispatch; `none`: it ended before.  `cred` are the credentials it starts with.
config_test, with -n, ends the process either way. -/
def childMain (env : StartEnv) (cred : Cred) (wd dflt : Bytes) (argv : List Bytes) : Option Started :=
  match mainArgs wd dflt argv with
  | .exit _ => none
  | .go o =>
    match childConf o with
    | none => none
    | some c =>
      match startPw env cred c with
      | none => none
      | some (pw, c) =>
        if o.conftest > 0 then none
        else
          match dropPriv env cred pw (if c.chroot = [] then none else some c.chroot) with
          | none => none
          | some cr => some { id := o.procId, inst := o.inst, prefork := c.prefork, cred := cr }

/-- proc.c:77-124, proc_exec: the arguments of the process `title`, instance `i`; `none` when one of them is a null pointer, so that those after it are not
seen.  `argv` are those of the parent. -/
def execArgv (pw : Option Passwd) (chroot : Option Bytes) (prefork : Int) (title : Bytes) (i : Nat) (argv : List Bytes) : List (Option Bytes) :=
  [argv.head?, some b%"-T", some title]
    ++ (match pw with | some pw => [some b%"-U", some pw.name, some b%"-X", chroot] | none => [])
    ++ [some b%"-J", some (intDec prefork), some b%"-I", some (natDec i)]
    ++ (argv.drop 1).map some

/-- execve(2): the arguments up to the first null pointer -/
def execSees (l : List (Option Bytes)) : List Bytes := (l.takeWhile Option.isSome).filterMap id

/-- gmid.c:254-369 in the parent, until proc_exec: which process, with which arguments; `none`: it ended before.  `conf` is what parse_conf makes of the file,
`none` when it fails. -/
def parentExec (env : StartEnv) (cred : Cred) (wd dflt : Bytes) (conf : Bytes → Option StartConf) (argv : List Bytes) :
    Option (StartConf × Option Passwd × (Nat → Nat → List Bytes)) :=
  match mainArgs wd dflt argv with
  | .exit _ => none
  | .go o =>
    if o.procId ≠ pParent then none
    else
      match conf o.config with
      | none => none
      | some c =>
        match parentConf c with
        | none => none
        | some c =>
          match startPw env cred c with
          | none => none
          | some (pw, c) =>
            if o.conftest > 0 then none
            else
              let ch := if c.chroot = [] then none else some c.chroot
              let pf := if c.prefork < 1 then 1 else c.prefork
              some (c, pw, fun p i =>
                execSees (execArgv pw ch pf (match procTable.find? (fun x => decide (x.2 = p)) with | some x => x.1 | none => []) i argv))

end Gmid

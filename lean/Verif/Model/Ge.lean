import Verif.Model.Exec
import Verif.Model.Server

/-!
# Model of gemexp (ge.c): its command line, the directory it offers, its data directory, and the
certificate it generates (gencert, utils.c)

The rest of gemexp is the server of gmid (server.c), run in one process.
-/

set_option autoImplicit false

namespace Gmid

/-! ## the command line -/

/-- ge.c:277, the letters, and whether they take an argument -/
def geOpts : List (UInt8 × Bool) :=
  [(c%'d', true), (c%'H', true), (c%'h', false), (c%'p', true), (c%'R', false), (c%'V', false), (c%'v', false)]

/-- getopt_long(3): the letters of one argument (see optCluster in Model/Exec.lean) -/
def geCluster : Bytes → List (UInt8 × Bytes) × Option UInt8
  | [] => ([], none)
  | c :: r =>
    match geOpts.lookup c with
    | none => let (os, n) := geCluster r; ((c%'?', []) :: os, n)
    | some false => let (os, n) := geCluster r; ((c, []) :: os, n)
    | some true => if r ≠ [] then ([(c, r)], none) else ([], some c)

/-- getopt_long(3) with the options of gemexp; the long ones (ge.c:38-42) are those of gmid -/
def geGetopt : List Bytes → List (UInt8 × Bytes) × List Bytes
  | [] => ([], [])
  | a :: rest =>
    if a = b%"--" then ([], rest)
    else if a.take 2 = b%"--" then let (os, r) := geGetopt rest; (optLong (a.drop 2) :: os, r)
    else if a.take 1 = b%"-" ∧ a ≠ b%"-" then
      match geCluster (a.drop 1) with
      | (os, none) => let (os', r) := geGetopt rest; (os ++ os', r)
      | (os, some c) =>
        match rest with
        | [] => (os ++ [(c%'?', [])], [])
        | v :: rest => let (os', r) := geGetopt rest; (os ++ (c, v) :: os', r)
    else ([], a :: rest)

/-- the variables of main, ge.c:262-270, and gen_eckey -/
structure GeOpts where
  certs : Option Bytes := none
  host : Bytes := b%"localhost"
  port : Int := 1965
  eckey : Bool := true
  verbose : Bool := false
  deriving Repr, DecidableEq

/-- ge.c:278-311, the body of the loop over the options; usage() exits with 1 -/
def geOpt (o : GeOpts) (x : UInt8 × Bytes) : MStep GeOpts :=
  let (c, arg) := x
  if c = c%'d' then .go { o with certs := some arg }
  else if c = c%'H' then .go { o with host := arg }
  else if c = c%'h' then .exit 1
  else if c = c%'p' then
    match strtonum arg 0 65535 with
    | (_, some _) => .exit 1
    | (n, none) => .go { o with port := n }
  else if c = c%'R' then .go { o with eckey := false }
  else if c = c%'V' then .exit 0
  else if c = c%'v' then .go { o with verbose := true }
  else .exit 1

/-- ge.c:277-312, the loop -/
def geOptsGo (o : GeOpts) : List (UInt8 × Bytes) → MStep GeOpts
  | [] => .go o
  | x :: r =>
    match geOpt o x with
    | .exit n => .exit n
    | .go o => geOptsGo o r

/-- ge.c:277-317: the options, and the directory if one was given -/
def geArgs (argv : List Bytes) : MStep (GeOpts × Option Bytes) :=
  match geOptsGo {} (geGetopt (argv.drop 1)).1 with
  | .exit n => .exit n
  | .go o =>
    match (geGetopt (argv.drop 1)).2 with
    | [] => .go (o, none)
    | [d] => .go (o, some d)
    | _ :: _ :: _ => .exit 1

/-- ge.c:337-349: loc->dir.  `wd` is the outcome of getcwd(3) with a buffer of PATH_MAX bytes, `none` when it fails;
the result of strlcpy(3) into `dir[PATH_MAX]` is not looked at.  fatal() exits with 1. -/
def geDir (wd : Option Bytes) (arg : Option Bytes) : MStep Bytes :=
  match arg with
  | none =>
    match wd with
    | none => .exit 1
    | some w => .go (w.take 4095)
  | some a =>
    if a.take 1 = b%"/" then .go (a.take 4095)
    else
      match wd with
      | none => .exit 1
      | some w => .go ((absolutify w a).take 4095)

/-- ge.c:325-335, the host and its location; `dirfd` is the descriptor that load_vhosts (server.c:1527-1557) gets from open(2) -/
def geHost (dir : Bytes) (dirfd : Int) : Vhost :=
  { domain := b%"*", dflt := { pat := b%"*", autoIndex := 1, fcgi := -1, dir := dir, dirfd := dirfd } }

/-! ## the data directory -/

/-- the bytes of `p` without the slashes at its end -/
def trimSlash (p : Bytes) : Bytes := (p.reverse.dropWhile (· == c%'/')).reverse

/-- dirname(3).  `two`: the one of glibc keeps exactly two slashes at the beginning (POSIX permits it); the other one does not. -/
def dirname (two : Bool) (p : Bytes) : Bytes :=
  let root (s : Bytes) : Bytes := if two && s == b%"//" then b%"//" else b%"/"
  if p = [] then b%"."
  else
    let q := trimSlash p
    if q = [] then root p
    else
      let d := (q.reverse.dropWhile (· != c%'/')).reverse
      if d = [] then b%"."
      else
        let e := trimSlash d
        if e = [] then root d else e

/-- the outcome of mkdir(2) -/
inductive MkRes where
  | made | exists | failed
  deriving Repr, DecidableEq

/-- the directories there are, and the ones that can be made: mkdir(2) fails where the parent is not there or `may` says so -/
structure DirTree where
  has : Bytes → Bool
  may : Bytes → Bool

/-- mkdir(2); `two` as above, for the name of the parent -/
def DirTree.mkdir (two : Bool) (t : DirTree) (p : Bytes) : DirTree × MkRes :=
  if t.has p then (t, .exists)
  else if t.has (dirname two p) && t.may p then ({ t with has := fun q => if q = p then true else t.has q }, .made)
  else (t, .failed)

/-- ge.c:120-144, pdirname and mkdirs.  The first argument bounds the depth of the recursion: `none` when it is deeper.  The buffers
have PATH_MAX + 1 = 4097 bytes.  With the tree: the calls of mkdir, in order. -/
def mkdirs (two : Bool) : Nat → Bytes → DirTree × List Bytes → Option (MStep (DirTree × List Bytes))
  | 0, _, _ => none
  | n + 1, path, s =>
    if path.length ≥ 4097 then some (.exit 1)
    else
      let d := dirname two path
      if d = b%"/" then some (.go s)
      else
        match mkdirs two n d s with
        | none => none
        | some (.exit k) => some (.exit k)
        | some (.go s) =>
          match s.1.mkdir two path with
          | (_, .failed) => some (.exit 1)
          | (t, _) => some (.go (t, s.2 ++ [path]))

/-- ge.c:146-160: the name of the data directory, from the environment -/
def dataName (xdg home : Option Bytes) : MStep Bytes :=
  match xdg with
  | none =>
    match home with
    | none => .exit 1
    | some h => .go (h ++ b%"/.local/share/gemexp")
  | some x => .go (x ++ b%"/gemexp")

/-- ge.c:146-165, data_dir -/
def dataDir (two : Bool) (fuel : Nat) (xdg home : Option Bytes) (t : DirTree) : Option (MStep (Bytes × DirTree × List Bytes)) :=
  match dataName xdg home with
  | .exit k => some (.exit k)
  | .go p =>
    match mkdirs two fuel p (t, []) with
    | none => none
    | some (.exit k) => some (.exit k)
    | some (.go (t, l)) => some (.go (p, t, l))

/-! ## the certificate -/

/-- a file, as the user of gemexp sees it -/
structure FileSt where
  data : Bytes
  mode : Nat
  readable : Bool := true
  writable : Bool := true
  deriving Repr, DecidableEq

/-- the files of the directory with the certificates, whether the user may create and remove names in it, and the umask -/
structure CertDir where
  file : Bytes → Option FileSt
  writable : Bool
  umask : Nat

/-- set or remove a file -/
def CertDir.put (d : CertDir) (p : Bytes) (f : Option FileSt) : CertDir := { d with file := fun q => if q = p then f else d.file q }

/-- access(2) with R_OK -/
def CertDir.access (d : CertDir) (p : Bytes) : Bool :=
  match d.file p with
  | some f => f.readable
  | none => false

/-- fopen(3) with "w": a file that is there is emptied and keeps its mode, a new one has mode 0666 less the umask -/
def CertDir.fopenW (d : CertDir) (p : Bytes) : Option CertDir :=
  match d.file p with
  | some f => if f.writable then some (d.put p (some { f with data := [] })) else none
  | none => if d.writable then some (d.put p (some { data := [], mode := 0o666 - (0o666 &&& d.umask) })) else none

/-- write(2) at the end of a file -/
def CertDir.append (d : CertDir) (p : Bytes) (b : Bytes) : CertDir :=
  match d.file p with
  | some f => d.put p (some { f with data := f.data ++ b })
  | none => d

/-- unlink(2) -/
def CertDir.unlink (d : CertDir) (p : Bytes) : CertDir := if d.writable then d.put p none else d

/-- what the libraries do while a certificate is generated: the writes of the key and of the certificate (stdio splits them as it likes), and
whether the functions succeed -/
structure GenEnv where
  keyWrites : List Bytes
  /-- ec_key_create or rsa_key_create, then fflush and fclose -/
  keyOk : Bool
  /-- the X509 functions -/
  x509Ok : Bool
  certWrites : List Bytes
  /-- PEM_write_X509, fflush and fclose -/
  certOk : Bool

/-- the states that the directory goes through, the first one being the one before -/
def appendAll (p : Bytes) : List Bytes → CertDir → List CertDir
  | [], d => [d]
  | b :: r, d => d :: appendAll p r (d.append p b)

/-- the last one -/
def lastState (l : List CertDir) (d : CertDir) : CertDir := l.getLast?.getD d

/-- utils.c:298-302, the end of gencert when something went wrong; exit(1) -/
def genErr (cert key : Bytes) (d : CertDir) : List CertDir := [d.unlink cert, (d.unlink cert).unlink key]

/-- utils.c:212-302, gencert: the states that the directory goes through, in order, and whether it returns (else it exits).  The
process may die in each of these states. -/
def gencert (g : GenEnv) (cert key : Bytes) (d : CertDir) : List CertDir × Bool :=
  match d.fopenW key with
  | none => (d :: genErr cert key d, false)
  | some d1 =>
    let l1 := appendAll key g.keyWrites d1
    let d2 := lastState l1 d1
    if !g.keyOk || !g.x509Ok then (d :: l1 ++ genErr cert key d2, false)
    else
      match d2.fopenW cert with
      | none => (d :: l1 ++ genErr cert key d2, false)
      | some d3 =>
        let l3 := appendAll cert g.certWrites d3
        let d4 := lastState l3 d3
        if !g.certOk then (d :: l1 ++ l3 ++ genErr cert key d4, false)
        else (d :: l1 ++ l3, true)

/-- tls_load_file -/
def CertDir.load (d : CertDir) (p : Bytes) : Option Bytes :=
  match d.file p with
  | some f => if f.readable then some f.data else none
  | none => none

/-- ge.c:94-118, load_local_cert: the states of the directory, and the certificate and the key loaded, or the exit.  `host[256]` is domain. -/
def loadLocalCert (g : GenEnv) (host dir : Bytes) (d : CertDir) : List CertDir × MStep (Bytes × Bytes) :=
  let cert := dir ++ b%"/" ++ host ++ b%".pem"
  let key := dir ++ b%"/" ++ host ++ b%".key"
  let (l, ok) := if !d.access cert || !d.access key then gencert g cert key d else ([d], true)
  if !ok then (l, .exit 1)
  else
    match (lastState l d).load cert with
    | none => (l, .exit 1)
    | some c =>
      match (lastState l d).load key with
      | none => (l, .exit 1)
      | some k => if host.length ≥ 256 then (l, .exit 1) else (l, .go (c, k))

end Gmid

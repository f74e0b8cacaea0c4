import Verif.Model.Clients
import Verif.Model.Exec
import Verif.Model.UpTls

/-!
# gg and titan from their command line to their exit status

The arguments of a program are C strings.  getopt is the one of POSIX and the BSDs, which stops at the first argument that is not an option.
What the resolver, connect(2), OpenSSL, the files and the peer come to is an input.  Left out: SIGALRM (`-T` only keeps the number), allocation
failures, and the texts of the messages on standard error.
-/

set_option autoImplicit false

namespace Gmid

/-! ## getopt(3) -/

/-- getopt(3): the letters of one argument; when the last one needs an argument that is not there, it.  `letters` is the option string: for
each letter, whether it takes an argument. -/
def getoptLetters (letters : List (UInt8 × Bool)) : Bytes → List (UInt8 × Bytes) × Option UInt8
  | [] => ([], none)
  | c :: r =>
    match letters.lookup c with
    | none => ((c%'?', []) :: (getoptLetters letters r).1, (getoptLetters letters r).2)
    | some false => ((c, []) :: (getoptLetters letters r).1, (getoptLetters letters r).2)
    | some true => if r ≠ [] then ([(c, r)], none) else ([], some c)

/-- getopt(3): the options in their order, `?` for those that are wrong, and the arguments that are left -/
def getoptOf (letters : List (UInt8 × Bool)) : List Bytes → List (UInt8 × Bytes) × List Bytes
  | [] => ([], [])
  | a :: rest =>
    if a = b%"--" then ([], rest)
    else if a.take 1 = b%"-" ∧ a ≠ b%"-" then
      match getoptLetters letters (a.drop 1) with
      | (os, none) => (os ++ (getoptOf letters rest).1, (getoptOf letters rest).2)
      | (os, some c) =>
        match rest with
        | [] => (os ++ [(c%'?', [])], [])
        | v :: rest => (os ++ (c, v) :: (getoptOf letters rest).1, (getoptOf letters rest).2)
    else ([], a :: rest)

/-! ## connecting -/

/-- gg.c:107-131, connectto, and titan.c:76-99, dial: the number of the address that is used, counted from `k`.  `dial` says of each address
that getaddrinfo(3) gave whether socket(2) and connect(2) succeed. -/
def firstThat (k : Nat) : List Bool → Option Nat
  | [] => none
  | true :: _ => some k
  | false :: r => firstThat (k + 1) r

/-- the files, the resolver and the network -/
structure CliEnv where
  isAddr : Bytes → Bool                            -- inet_pton(3), in parse_iri
  inet : Bytes → Option Bytes                      -- inet_pton(3), in libtls
  loads : Bytes × Bytes → Bool                     -- the certificate and the key can be used
  file : Bytes → Option Bytes                      -- what tls_config_set_keypair_file finds in a file
  dial : Bytes → Bytes → Option (List Bool)        -- getaddrinfo(3); `none` when it fails

/-- gg.c:242-251, and titan.c:355 with tls_write(3): tls_handshake until it is complete.  `none`: it still is not. -/
def shake (inet : Bytes → Option Bytes) (t : TlsClient) : List SslRes → Option Bool
  | [] => none
  | r :: rs =>
    match tlsHandshakeClient inet t r with
    | .complete => some true
    | .failed => some false
    | .wantIn => shake inet t rs
    | .wantOut => shake inet t rs

/-- tls_config_set_keypair_file(3): both files are read -/
def keypairFile (env : CliEnv) (cert key : Bytes) : Option (Bytes × Bytes) :=
  match env.file cert, env.file key with
  | some c, some k => some (c, k)
  | _, _ => none

/-- what one of the programs did: the host and port it looked up; the number of the address it connected to; the TLS context; what it
handed to the connection; what it printed; what it said on standard error; its exit status, none when it still waits -/
structure CliRun where
  asked : Option (Bytes × Bytes) := none
  peer : Option Nat := none
  tls : Option TlsClient := none
  sent : Bytes := []
  out : Bytes := []
  says : Option Bytes := none
  status : Option Nat := none
  deriving Repr, DecidableEq

/-! ## gg -/

/-- gg.c:396: "23C:d:H:K:nNP:qT:" -/
def ggLetters : List (UInt8 × Bool) :=
  [(c%'2', false), (c%'3', false), (c%'C', true), (c%'d', true), (c%'H', true), (c%'K', true), (c%'n', false), (c%'N', false), (c%'P', true),
   (c%'q', false), (c%'T', true)]

/-- gg.c:36-49, the variables the options set -/
structure GgOpts where
  two : Bool := false
  three : Bool := false
  cert : Option Bytes := none
  key : Option Bytes := none
  mode : GgMode := .none
  sni : Option Bytes := none
  noVerify : Bool := false
  nop : Bool := false
  quiet : Bool := false
  proxy : Option (Bytes × Bytes) := none
  timer : Int := 0
  deriving Repr, DecidableEq

/-- gg.c:349-362, parse_debug; `none` is usage() -/
def parseDebug (arg : Bytes) : Option GgMode :=
  if arg = b%"none" then some .none
  else if arg = b%"code" then some .code
  else if arg = b%"header" then some .header
  else if arg = b%"meta" then some .onlyMeta
  else if arg = b%"all" then some .all
  else none

/-- gg.c:397-440, the body of the loop over the options; usage() exits with 1 -/
def ggOpt (o : GgOpts) (x : UInt8 × Bytes) : MStep GgOpts :=
  let (c, arg) := x
  if c = c%'2' then .go { o with two := true }
  else if c = c%'3' then .go { o with three := true }
  else if c = c%'C' then .go { o with cert := some arg }
  else if c = c%'d' then
    match parseDebug arg with
    | some m => .go { o with mode := m }
    | none => .exit 1
  else if c = c%'H' then .go { o with sni := some arg }
  else if c = c%'K' then .go { o with key := some arg }
  else if c = c%'N' then .go { o with noVerify := true }
  else if c = c%'n' then .go { o with nop := true }
  else if c = c%'P' then
    match parseProxyArg arg with
    | some p => .go { o with proxy := some p, noVerify := true }
    | none => .exit 1
  else if c = c%'q' then .go { o with quiet := true }
  else if c = c%'T' then
    match strtonum arg 1 1000 with
    | (n, none) => .go { o with timer := n }
    | (_, some _) => .exit 1
  else .exit 1

/-- gg.c:396-440, the loop -/
def ggOptsGo (o : GgOpts) : List (UInt8 × Bytes) → MStep GgOpts
  | [] => .go o
  | x :: r =>
    match ggOpt o x with
    | .exit n => .exit n
    | .go o => ggOptsGo o r

/-- gg.c:441-456: what is refused afterwards, and the one argument -/
def ggCheck (o : GgOpts) (rest : List Bytes) : MStep (GgOpts × Bytes) :=
  if o.two && o.three then .exit 1
  else if o.cert.isSome != o.key.isSome then .exit 1
  else
    match rest with
    | [u] => .go (o, u)
    | _ => .exit 1

/-- gg.c:388-456, main up to load_tls_conf -/
def ggArgs (argv : List Bytes) : MStep (GgOpts × Bytes) :=
  match ggOptsGo {} (getoptOf ggLetters (argv.drop 1)).1 with
  | .exit n => .exit n
  | .go o => ggCheck o (getoptOf ggLetters (argv.drop 1)).2

/-- gg.c:62-84, load_tls_conf; `none` is errx(1) -/
def ggConf (env : CliEnv) (o : GgOpts) : Option ClientTls :=
  let conf : ClientTls := { verifyCert := false }
  let conf := if o.noVerify then { conf with verifyName := false } else conf
  let conf := if o.two then { conf with protocols := protoTls12 } else conf
  let conf := if o.three then { conf with protocols := protoTls13 } else conf
  match o.cert, o.key with
  | some c, some k => (keypairFile env c k).map fun p => { conf with keypair := some p }
  | _, _ => some conf

/-- gg.c:96-102, connectto: the host and port to look up, and the name to ask for -/
def ggTarget (o : GgOpts) (host port : Bytes) : (Bytes × Bytes) × Bytes :=
  let hp := match o.proxy with | some p => p | none => (host, port)
  (hp, match o.sni with | some s => s | none => hp.1)

/-- gg.c:255-335, the request and the reply, once the handshake is complete; `ws` is what tls_write does each time, `rs` what arrives -/
def ggTalk (o : GgOpts) (req : Bytes) (ws : List (Option Nat)) (rs : List TRead) (r : CliRun) : CliRun :=
  if (doreq ws req).2 then
    { r with
      sent := (doreq ws req).1
      out := (ggReply o.mode o.quiet rs).out
      says := (ggReply o.mode o.quiet rs).says
      status := some (ggReply o.mode o.quiet rs).status }
  else { r with sent := (doreq ws req).1, status := some 1 }

/-- gg.c:235-253, connectto and the handshake -/
def ggReach (env : CliEnv) (o : GgOpts) (conf : ClientTls) (req host port : Bytes) (hs : List SslRes) (ws : List (Option Nat)) (rs : List TRead) : CliRun :=
  let (hp, name) := ggTarget o host port
  match (env.dial hp.1 hp.2).bind (firstThat 0) with
  | none => { asked := some hp, status := some 1 }
  | some k =>
    match tlsConnect env.inet env.loads conf name with
    | none => { asked := some hp, peer := some k, status := some 1 }
    | some t =>
      match shake env.inet t hs with
      | none => { asked := some hp, peer := some k, tls := some t }
      | some false => { asked := some hp, peer := some k, tls := some t, status := some 1 }
      | some true => ggTalk o req ws rs { asked := some hp, peer := some k, tls := some t }

/-- gg.c:458-470, the rest of main, with gg.c:206-251, get -/
def ggGet (env : CliEnv) (o : GgOpts) (url : Bytes) (hs : List SslRes) (ws : List (Option Nat)) (rs : List TRead) : Res CliRun :=
  match ggConf env o with
  | none => .ok { status := some 1 }
  | some conf =>
    match ggRequest env.isAddr url with
    | .ub => .ub
    | .err => .ok { status := some 1 }
    | .ok (req, host, port) =>
      if o.nop then .ok { status := some 0 }
      else .ok (ggReach env o conf req host port hs ws rs)

/-- gg -/
def ggMain (env : CliEnv) (argv : List Bytes) (hs : List SslRes) (ws : List (Option Nat)) (rs : List TRead) : Res CliRun :=
  match ggArgs argv with
  | .exit n => .ok { status := some n }
  | .go (o, url) => ggGet env o url hs ws rs

/-! ## titan -/

/-- titan.c:263: "C:K:m:t:" -/
def titanLetters : List (UInt8 × Bool) := [(c%'C', true), (c%'K', true), (c%'m', true), (c%'t', true)]

/-- the variables of main that the options set -/
structure TitanOpts where
  cert : Option Bytes := none
  key : Option Bytes := none
  mime : Option Bytes := none
  token : Option Bytes := none
  deriving Repr, DecidableEq

/-- titan.c:264-279, the body of the loop over the options -/
def titanOpt (o : TitanOpts) (x : UInt8 × Bytes) : MStep TitanOpts :=
  let (c, arg) := x
  if c = c%'C' then .go { o with cert := some arg }
  else if c = c%'K' then .go { o with key := some arg }
  else if c = c%'m' then .go { o with mime := some arg }
  else if c = c%'t' then .go { o with token := some arg }
  else .exit 1

/-- titan.c:263-280, the loop -/
def titanOptsGo (o : TitanOpts) : List (UInt8 × Bytes) → MStep TitanOpts
  | [] => .go o
  | x :: r =>
    match titanOpt o x with
    | .exit n => .exit n
    | .go o => titanOptsGo o r

/-- titan.c:281-290: the url, and the file if there is one -/
def titanCheck (o : TitanOpts) (rest : List Bytes) : MStep (TitanOpts × Bytes × Option Bytes) :=
  if o.cert = none ∧ o.key ≠ none then .exit 1
  else
    let o := if o.cert ≠ none ∧ o.key = none then { o with key := o.cert } else o
    match rest with
    | [u] => .go (o, u, none)
    | [u, f] => .go (o, u, some f)
    | _ => .exit 1

/-- titan.c:263-290, main up to open_input_file -/
def titanArgs (argv : List Bytes) : MStep (TitanOpts × Bytes × Option Bytes) :=
  match titanOptsGo {} (getoptOf titanLetters (argv.drop 1)).1 with
  | .exit n => .exit n
  | .go o => titanCheck o (getoptOf titanLetters (argv.drop 1)).2

/-- what one fread(3) on standard input does: some bytes (at least one), possibly with the error indicator set; or none, with it set (the end
of the script is the end of the file) -/
inductive InRead where
  | data (b : UInt8) (r : Bytes) (err : Bool)
  | fail
  deriving Repr, DecidableEq

/-- titan.c:195-203, the loop that copies standard input: what the temporary file then has, and whether one of the error indicators is set
(`e`: already is).  `puts n` says whether the `n`th fwrite(3) writes everything; a short one sets the error indicator of the file. -/
def copyIn (puts : Nat → Bool) (n : Nat) (got : Bytes) (e : Bool) : List InRead → Bytes × Bool
  | [] => (got, e)
  | .fail :: _ => (got, true)
  | .data b t err :: r =>
    if puts n then copyIn puts (n + 1) (got ++ b :: t) (e || err) r
    else (got, true)

/-- what fstat(2) says of the size, and what the fread(3) calls on it find -/
structure Upload where
  size : Nat
  bytes : Bytes
  deriving Repr, DecidableEq

/-- the files that can be opened, standard input, the temporary file (`tmp`: it can be made; `puts`; `seek`: fseeko(3), which writes what is
still in the buffer, succeeds) -/
structure TitanIn where
  opens : Bytes → Option Upload
  stdin : List InRead
  tmp : Bool
  puts : Nat → Bool
  seek : Bool

/-- titan.c:170-210, open_input_file, and the fstat of titan.c:298; `none` is exit(1) -/
def titanInput (i : TitanIn) (f : Option Bytes) : Option Upload :=
  match f with
  | some n => i.opens n
  | none =>
    if !i.tmp then none
    else if (copyIn i.puts 0 [] false i.stdin).2 then none
    else if !i.seek then none
    else some { size := (copyIn i.puts 0 [] false i.stdin).1.length, bytes := (copyIn i.puts 0 [] false i.stdin).1 }

/-- titan.c:330-336: the TLS configuration; `none` is errx(1) -/
def titanConf (env : CliEnv) (o : TitanOpts) : Option ClientTls :=
  let conf : ClientTls := { verifyCert := false, verifyName := false }
  match o.cert, o.key with
  | some c, some k => (keypairFile env c k).map fun p => { conf with keypair := some p }
  | _, _ => some conf

/-- titan.c:354-381, once the handshake is complete: the request line, in the rounds `first` of the first iomux, then the file -/
def titanTalk (bufsiz : Nat) (req : Bytes) (u : Upload) (first : List Round) (runs : List (List Round)) (r : CliRun) : CliRun :=
  match iomux false first 0 [] req with
  | (s, .waiting) => { r with sent := s }
  | (s, .fail) => { r with sent := s, status := some 1 }
  | (s, .reply _) =>
    let o := titanLoop bufsiz runs u.bytes
    match o.res with
    | none => { r with sent := s ++ o.sent }
    | some (out, n) => { r with sent := s ++ o.sent, out := out, status := some n }

/-- titan.c:344-352 and the handshake, which the first tls_write does -/
def titanConnect (env : CliEnv) (bufsiz : Nat) (conf : ClientTls) (req host port : Bytes) (u : Upload) (hs : List SslRes) (first : List Round)
    (runs : List (List Round)) : CliRun :=
  let hp := (host, if port = [] then b%"1965" else port)
  match (env.dial hp.1 hp.2).bind (firstThat 0) with
  | none => { asked := some hp, status := some 1 }
  | some k =>
    match tlsConnect env.inet env.loads conf host with
    | none => { asked := some hp, peer := some k, status := some 1 }
    | some t =>
      match shake env.inet t hs with
      | none => { asked := some hp, peer := some k, tls := some t }
      | some false => { asked := some hp, peer := some k, tls := some t, status := some 1 }
      | some true => titanTalk bufsiz req u first runs { asked := some hp, peer := some k, tls := some t }

/-- the outcome of titan: a run, or the system kills it (pledge(2)) -/
inductive TitanEnd where
  | run (r : CliRun)
  | killed
  deriving Repr, DecidableEq

/-- titan.c:292-404, the rest of main; `pledges`: the system has pledge(2), and with it kills a process that opens a file after it gave
up "rpath" (titan.c:295), as tls_config_set_keypair_file does (titan.c:335) -/
def titanGo (env : CliEnv) (pledges : Bool) (bufsiz : Nat) (i : TitanIn) (o : TitanOpts) (url : Bytes) (f : Option Bytes) (hs : List SslRes)
    (first : List Round) (runs : List (List Round)) : Res TitanEnd :=
  match titanInput i f with
  | none => .ok (.run { status := some 1 })
  | some u =>
    match titanRequest env.isAddr url u.size o.token o.mime with
    | .ub => .ub
    | .err => .ok (.run { status := some 1 })
    | .ok req =>
      if pledges && o.cert.isSome then .ok .killed
      else
        match titanConf env o with
        | none => .ok (.run { status := some 1 })
        | some conf =>
          match parseIri env.isAddr url with
          | .ok i => .ok (.run (titanConnect env bufsiz conf req i.host i.port u hs first runs))
          | _ => .ok (.run { status := some 1 })

/-- titan -/
def titanMain (env : CliEnv) (pledges : Bool) (bufsiz : Nat) (i : TitanIn) (argv : List Bytes) (hs : List SslRes) (first : List Round)
    (runs : List (List Round)) : Res TitanEnd :=
  match titanArgs argv with
  | .exit n => .ok (.run { status := some n })
  | .go (o, url, f) => titanGo env pledges bufsiz i o url f hs first runs

end Gmid

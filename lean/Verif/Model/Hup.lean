import Verif.Model.Pki

/-!
# SIGHUP, up to the point where every process works with the new configuration

gmid.c, config.c and server.c, with the files as each process finds them when it reads them: the main process opens them and sends the descriptors, the
others read them later, and meanwhile a file may be written to in place.
-/

set_option autoImplicit false

namespace Gmid

/-- an open file as a process finds it: st_size when it calls fstat(2), the contents when it calls pread(2); `none`: pread fails -/
structure FileAt where
  size : Int
  data : Option Bytes
  deriving Repr, DecidableEq

/-- config.c:440-469, load_file; `none` is -1.  fstat(2) does not fail and malloc(3) gives a pointer, also for 0 bytes (as it does with glibc). -/
def loadFile (f : FileAt) : Option Bytes :=
  if f.size < 0 then none
  else
    match f.data with
    | none => none
    | some d =>
      let r := d.take f.size.toNat
      if r.length ≠ f.size.toNat then none else some r

/-- the files behind the descriptors a process gets, by the path the main process opened.  (Simplification: a process that gets a file twice finds it the same.) -/
abbrev SeenFiles := Bytes → FileAt

/-- what the process gets of a file -/
def SeenFiles.read (v : SeenFiles) (path : Bytes) : Option Bytes := loadFile (v path)

section
variable {X K P : Type} (lib : PkiLib X K P)

/-- server.c:1591-1608, server_configure_done: `true` unless it ends the process -/
def configureDoneOk [DecidableEq P] (junk : Nat → Bytes) (openDir : Bytes → Option Int) (privsep : Bool) (st : Worker) : Bool :=
  (workerTypes st).isSome && setupTlsOk lib junk privsep (st.hosts.map fun h => (h.cert.getD [], h.key.getD [])) && (loadVhosts openDir st.hosts).isSome

/-- server.c:1610-1646, server_dispatch_parent, on all messages of a reload; `.err`: the process ends.  The server processes have neither hashes nor keys to load. -/
def serverTakes [DecidableEq P] (junk : Nat → Bytes) (loadCa : Bytes → Option Nat) (openDir : Bytes → Option Int) (privsep : Bool) (v : SeenFiles) (st0 : Worker)
    (ms : List (CMsg CLoc (Bytes × Bytes) CProxy LAddr FcgiEp)) : Res Worker :=
  match recvAll v.read loadCa (fun _ => none) (fun _ => none) .server st0 ms with
  | .ok st => if configureDoneOk lib junk openDir privsep st then .ok st else .err
  | .err => .err
  | .ub => .ub

/-- struct conf in the crypto process -/
abbrev CryptoConf (K : Type) := WState CLoc (Bytes × Bytes) CProxy LAddr FcgiEp Nat K

/-- crypto.c:80-105, crypto_dispatch_parent, on all messages of a reload; `junk` is what malloc(3) returns in ssl_pubkey_hash -/
def cryptoTakes (junk : Bytes) (v : SeenFiles) (st0 : CryptoConf K) (ms : List (CMsg CLoc (Bytes × Bytes) CProxy LAddr FcgiEp)) : Res (CryptoConf K) :=
  recvAll v.read (fun _ => none) (fun d => (sslPubkeyHash lib junk d).val?.bind id) lib.key .crypto st0 ms

/-- processes next to each other: one that ends is enough (gmid.c:528-534, SIGCHLD) -/
def outcomes {α : Type} : List (Res α) → Res (List α)
  | [] => .ok []
  | .ok a :: r =>
    match outcomes r with
    | .ok l => .ok (a :: l)
    | .err => .err
    | .ub => .ub
  | .err :: r =>
    match outcomes r with
    | .ub => .ub
    | _ => .err
  | .ub :: _ => .ub

/-- a server process when a reload reaches it: its configuration, the files as it finds them, and the directories it can open -/
structure ServerNow where
  st : Worker
  view : SeenFiles
  openDir : Bytes → Option Int

/-- what becomes of gmid: it goes on as it was, goes on with the new configuration, ends, or its behaviour is undefined -/
inductive HupOut (K : Type) where
  | kept
  | took (servers : List Worker) (crypto : CryptoConf K)
  | ended
  | undefined

/-- gmid.c:483-509, main_reload, with main_configure (445-469), in the main process, the server processes and the crypto process.  `parsed`: what parse_conf gives,
`none` when it fails; `opened`: the files the main process can open (what it does not open it does not read, the contents play no role). -/
def hupAll [DecidableEq P] (junk : Nat → Bytes) (junkH : Bytes) (loadCa : Bytes → Option Nat) (privsep : Bool) (sup : LAddr → Bool) (opened : Bytes → Option Bytes)
    (servers : List ServerNow) (crypto : CryptoConf K) (cview : SeenFiles) (parsed : Option CConf) : HupOut K :=
  match parsed with
  | none => .kept
  | some c =>
    match mainConfigure opened sup (c.toP privsep) with
    | none => .ended
    | some ms =>
      match cryptoTakes lib junkH cview crypto (forProc .crypto ms) with
      | .ub => .undefined
      | .err =>
        match outcomes (servers.map fun s => serverTakes lib junk loadCa s.openDir privsep s.view s.st (forProc .server ms)) with
        | .ub => .undefined
        | _ => .ended
      | .ok k =>
        match outcomes (servers.map fun s => serverTakes lib junk loadCa s.openDir privsep s.view s.st (forProc .server ms)) with
        | .ub => .undefined
        | .err => .ended
        | .ok ss => .took ss k

end

end Gmid

import Verif.Model.Iri
import Verif.Model.Mime
import Verif.Model.Utils

/-!
# Model of the request handling of server.c

A connection is a `Client`; the operating system, libtls, OpenSSL, the IRI host decoder and the
upstreams are an `Env` of arbitrary answers, chosen anew for every event, so that a theorem about
all environments covers every behaviour they may have.
-/

set_option autoImplicit false

namespace Gmid

/-- the digits of printf's "%d" for n >= 0, most significant first; the fuel is enough for any n -/
def natDecAux : Nat → Nat → Bytes → Bytes
  | 0, _, acc => acc
  | f + 1, n, acc =>
    let acc' := UInt8.ofNat (48 + n % 10) :: acc
    if n / 10 = 0 then acc' else natDecAux f (n / 10) acc'

/-- printf "%d", n >= 0 -/
def natDec (n : Nat) : Bytes := natDecAux (n + 1) n []

/-- printf "%d" -/
def intDec (n : Int) : Bytes := if n < 0 then c%'-' :: natDec n.natAbs else natDec n.natAbs

/-- gmid.h:284-291, the request types -/
inductive RType where
  | undecided | file | dir | fcgi | proxy | done
  deriving Repr, DecidableEq

/-- S_ISDIR / S_ISREG of st_mode -/
inductive FKind where
  | dir | reg | other
  deriving Repr, DecidableEq

/-- the members of `struct dirent` in use: d_name and d_type == DT_DIR -/
structure Dirent where
  name : Bytes
  isDir : Bool
  deriving Repr, DecidableEq

/-- What a handler does to the outside world, in order.  `header` is not an effect by itself: it is
recorded when a complete reply header has been put in the output buffer. -/
inductive Eff where
  | header (code : Int) (text : Bytes)      -- a header line, without its CRLF
  | log (code : Int) (mt : Bytes)
  | openat (dirfd : Int) (name : Bytes)
  | relay (p : Proxy)                       -- connection attempt to the upstream
  | fastcgi (idx : Int) (loc : Location)    -- connection attempt to the application
  | close
  deriving Repr, DecidableEq

/-- the part of `struct client` (gmid.h:319-366) used here.  `out` is the output evbuffer of the
TLS bufferevent, `sent` the bytes already accepted by tls_write, `inp` the input evbuffer.  `iri`
is `none` while iri.path is NULL.  `rest` is what read(2) on pfd would still deliver. -/
structure Client where
  type : RType := .undecided
  code : Int := 0
  host : Option Vhost := none
  domain : Bytes := []
  iri : Option Iri := none
  inp : Bytes := []
  out : Bytes := []
  sent : Bytes := []
  pfd : Int := -1
  loc : Nat := 0
  dir : List Dirent := []
  effs : List Eff := []
  closed : Bool := false
  deriving Repr

/-- Everything a handler asks of the outside. -/
structure Env where
  /-- fnmatch(pattern, string, 0) == 0 -/
  fnm : Bytes → Bytes → Bool
  /-- getaddrinfo(AI_NUMERICHOST) accepts the text -/
  isAddr : Bytes → Bool
  /-- puny_decode, `none` on failure -/
  puny : Bytes → Option Bytes
  /-- tls_peer_cert_provided -/
  certProvided : Bool
  /-- the return value of X509_verify_cert for the peer certificate against a store -/
  verify : Nat → Int
  /-- proxy_socket succeeds -/
  relayConnect : Proxy → Bool
  /-- proxy_init succeeds -/
  relayInit : Proxy → Bool
  /-- the number of FastCGI applications in the configuration -/
  nFcgi : Nat
  /-- fcgi_open_sock / fcgi_open_conn succeed -/
  fcgiConnect : Int → Bool
  /-- bufferevent_new succeeds -/
  fcgiBev : Bool
  /-- openat(dirfd, name, O_RDONLY) -/
  openat : Int → Bytes → Option Int
  fstat : Int → Option FKind
  /-- scandir_fd with the given selection -/
  scandir : Int → Bool → Option (List Dirent)
  /-- the table of types, sorted -/
  mimes : List Etm
  /-- addr->port, an int16_t -/
  port : Int
  /-- addr->pp -/
  addrName : Bytes
  /-- conf->hosts -/
  hosts : List Vhost

section
variable (env : Env)

/-- iri.path as the char pointer handed to vhost_*: NULL before a request has been parsed -/
def Client.path? (c : Client) : Option Bytes := c.iri.map (·.path)

/-- server.c:1153-1189, start_reply from the header that fits onwards: queue the header and its
CRLF, log, and set the type.  Allocation failures of the evbuffer are not modelled. -/
def queueHeader (c : Client) (code : Int) (mt hdr : Bytes) : Client :=
  { c with
    code := code
    out := c.out ++ hdr ++ b%"\r\n"
    effs := c.effs ++ [.header code hdr] ++
      (if vhostDisableLog env.fnm c.host c.path? then [] else [.log code mt])
    type := if code ≠ 20 then .done else c.type }

/-- server.c:1200-1204: everything queued is dropped, and the header becomes "40 internal error"
(the recursive call, which cannot overflow again: code 40 and a short mt). -/
def replyOverflow (c : Client) : Client :=
  queueHeader env { c with out := [] } 40 b%"internal error" b%"40 internal error"

/-- server.c:1153-1205, start_reply -/
def startReply (c : Client) (code : Int) (mt : Bytes) : Client :=
  let h := intDec code ++ c%' ' :: mt
  if h.length > 1027 then replyOverflow env c
  else
    match (if c.type ≠ .fcgi && c.type ≠ .proxy && mt = b%"text/gemini" then
        vhostLang env.fnm c.host c.path? else none) with
    | some lang =>
      let h' := h ++ b%";lang=" ++ lang
      if h'.length > 1027 then replyOverflow env c else queueHeader env c code mt h'
    | none => queueHeader env c code mt h

/-- `strlcat(buf, s, buflen)` on a terminated buffer, as a string operation (see Lemmas/CStr.lean
for the memory level) -/
def catS (n : Nat) (buf s : Bytes) : Bytes := if buf.length < n - 1 then (buf ++ s).take (n - 1) else buf

/-- server.c:432-481, the loop of fmtbuf: `tmp` holds the literal bytes not yet flushed.  A `%` at
the very end makes the loop step over the terminator: undefined. -/
def fmtLoop (n : Nat) (path query name : Bytes) (port : Int) : Bytes → Bytes → Bytes → Res Bytes
  | buf, tmp, [] => .ok (if tmp.length ≠ 0 then catS n buf tmp else buf)
  | buf, tmp, 37 :: r =>
    let buf := catS n buf tmp
    match r with
    | [] => .ub
    | 37 :: r => fmtLoop n path query name port (catS n buf b%"%") [] r
    | 112 :: r =>
      fmtLoop n path query name port
        (catS n (if hd path ≠ c%'/' then catS n buf b%"/" else buf) path) [] r
    | 113 :: r => fmtLoop n path query name port (catS n buf query) [] r
    | 80 :: r => fmtLoop n path query name port (catS n buf ((intDec port).take 31)) [] r
    | 78 :: r => fmtLoop n path query name port (catS n buf name) [] r
    | _ :: r => fmtLoop n path query name port buf [] r
  | buf, tmp, c :: r =>
    if tmp.length = 31 then fmtLoop n path query name port (catS n buf tmp) [c] r
    else fmtLoop n path query name port buf (tmp ++ [c]) r
termination_by structural _ _ f => f

/-- server.c:432-481, fmtbuf with a buffer of `n` bytes -/
def fmtbuf (n : Nat) (fmt path query name : Bytes) (port : Int) : Res Bytes :=
  fmtLoop n path query name port [] [] fmt

/-- parse.y:1235-1255, check_block_fmt: `.ok false` when an error is reported.  With a `%` at the
very end the error is reported and then the loop steps over the terminator: undefined. -/
def checkBlockFmt : Bytes → Res Bool
  | [] => .ok true
  | 37 :: r =>
    match r with
    | [] => .ub
    | 37 :: r => checkBlockFmt r
    | 112 :: r => checkBlockFmt r
    | 113 :: r => checkBlockFmt r
    | 80 :: r => checkBlockFmt r
    | 78 :: r => checkBlockFmt r
    | _ :: r =>
      match checkBlockFmt r with
      | .ok _ => .ok false
      | .err => .err
      | .ub => .ub
  | _ :: r => checkBlockFmt r

/-- parse.y:1387-1392: `addr->port = ntohs(...)` stores a 16 bit unsigned value in an int16_t -/
def int16 (n : Nat) : Int := if n < 32768 then n else (n : Int) - 65536

/-- server.c:484-499, apply_block_return -/
def applyBlockReturn (c : Client) (i : Iri) : Res (Client × Bool) :=
  match vhostBlockReturn env.fnm c.host (some i.path) with
  | none => .ok (c, false)
  | some (code, fmt) =>
    match fmtbuf 1027 fmt (stripPath i.path (vhostStrip env.fnm c.host (some i.path))) i.query
        c.domain env.port with
    | .ok buf => .ok (startReply env c code buf, true)
    | .err => .err
    | .ub => .ub

/-- server.c:526-544, check_matching_certificate, with utils.c:351-380, validate_against_ca: its
result is that of X509_verify_cert, and any nonzero value passes.  Failures to parse the
certificate or allocate make it 0. -/
def checkCert (c : Client) (store : Nat) : Client × Bool :=
  if !env.certProvided then (startReply env c 60 b%"client certificate required", true)
  else if env.verify store = 0 then (startReply env c 61 b%"certificate not authorised", true)
  else (c, false)

/-- server.c:501-524 with the request at hand -/
def clientProxy (c : Client) (i : Iri) : Option Proxy :=
  match c.host with
  | none => none
  | some v => matchedProxy env.fnm i.schema c.domain i.port v.proxies

/-- server.c:617-642, after the certificate check -/
def relayTo (c : Client) (p : Proxy) : Client :=
  let c := { c with effs := c.effs ++ [.relay p] }
  if !env.relayConnect p then startReply env c 43 b%"proxy error"
  else if !env.relayInit p then startReply env c 43 b%"proxy error"
  else { c with type := .proxy }

/-- server.c:617-642, apply_reverse_proxy -/
def applyReverseProxy (c : Client) (i : Iri) : Client × Bool :=
  match clientProxy env c i with
  | none => (c, false)
  | some p =>
    match p.reqca with
    | some store =>
      match checkCert env c store with
      | (c', true) => (c', true)
      | (c', false) => (relayTo env c' p, true)
    | none => (relayTo env c p, true)

/-- server.c:713-759, apply_fastcgi.  The type stays undecided.  The parameters sent by fcgi_req
are modelled elsewhere. -/
def applyFastcgi (c : Client) (i : Iri) : Client × Bool :=
  match vhostFastcgi env.fnm c.host (some i.path) with
  | none => (c, false)
  | some loc =>
    if ¬ (0 ≤ loc.fcgi ∧ loc.fcgi < env.nFcgi) then (c, false)
    else
      let c := { c with effs := c.effs ++ [.fastcgi loc.fcgi loc] }
      if !env.fcgiConnect loc.fcgi then (startReply env c 42 b%"CGI error", true)
      else if !env.fcgiBev then (startReply env c 40 b%"internal server error", true)
      else (c, true)

/-- server.c:762-770, apply_require_ca -/
def applyRequireCa (c : Client) (i : Iri) : Client × Bool :=
  match vhostRequireCa env.fnm c.host (some i.path) with
  | none => (c, false)
  | some store => checkCert env c store

/-- server.c:772-798, server_dir_listing; the third argument of scandir_fd is whether ".." is
dropped as well -/
def dirListing (c : Client) (i : Iri) : Client :=
  if !vhostAutoIndex env.fnm c.host (some i.path) then startReply env c 51 b%"not found"
  else
    match env.scandir c.pfd (i.path = b%"/" || i.path = []) with
    | none => startReply env c 40 b%"internal server error"
    | some d =>
      let c := startReply env { c with dir := d, type := .dir } 20 b%"text/gemini"
      { c with out := c.out ++ (b%"# Index of /" ++ i.path ++ b%"\n\n") }

/-- server.c:841-854, redirect_canonical_dir -/
def redirectDir (c : Client) (i : Iri) : Client :=
  let buf := c%'/' :: (i.path ++ b%"/")
  if buf.length ≥ 1027 then startReply env c 40 b%"internal server error"
  else startReply env c 30 buf

/-- server.c:800-839, open_dir; PATH_MAX is 4096 -/
def openDir (c : Client) (i : Iri) : Res Client :=
  if i.path ≠ [] && !endsWith i.path b%"/" then .ok (redirectDir env c i)
  else
    let index := vhostIndex env.fnm c.host (some i.path)
    let c := { c with effs := c.effs ++ [.openat c.pfd index] }
    match env.openat c.pfd index with
    | none => .ok (dirListing env c i)
    | some fd =>
      match env.fstat fd with
      | none => .ok (startReply env c 40 b%"internal server error")
      | some .reg =>
        match mimeType env.fnm env.mimes c.host ((i.path ++ index).take 4095) with
        | .ok m => .ok (startReply env { c with pfd := fd, type := .file } 20 m)
        | .err => .err
        | .ub => .ub
      | some _ => .ok (dirListing env c i)

/-- server.c:1030-1036: the name to open -/
def openName (strip : Int) (path : Bytes) : Bytes :=
  let p := (stripPath path strip).dropWhile (· == c%'/')
  if p = [] then b%"." else p

/-- server.c:1030-1060, the file handler -/
def serveFile (c : Client) (i : Iri) : Res Client :=
  let p := openName (vhostStrip env.fnm c.host (some i.path)) i.path
  let dirfd := (vhostDirfd env.fnm c.host (some i.path)).1
  let c := { c with loc := (vhostDirfd env.fnm c.host (some i.path)).2, effs := c.effs ++ [Eff.openat dirfd p] }
  match env.openat dirfd p with
  | none => .ok (startReply env { c with pfd := -1 } 51 b%"not found")
  | some fd =>
    let c := { c with pfd := fd }
    match env.fstat fd with
    | none => .ok (startReply env c 40 b%"internal server error")
    | some .dir => openDir env c i
    | some _ =>
      match mimeType env.fnm env.mimes c.host p with
      | .ok m => .ok (startReply env { c with type := .file } 20 m)
      | .err => .err
      | .ub => .ub

/-- strcasecmp(3) == 0, C locale -/
def eqNoCase (a b : Bytes) : Bool := a.map toLower == b.map toLower

/-- server.c:1013-1060, client_read once the request has been parsed -/
def dispatch (c : Client) (i : Iri) (decoded : Bytes) : Res Client :=
  match applyReverseProxy env c i with
  | (c, true) => .ok c
  | (c, false) =>
    if i.schema ≠ b%"gemini" || !eqNoCase c.domain decoded then
      .ok (startReply env c 53 b%"won't proxy request")
    else
      match applyRequireCa env c i with
      | (c, true) => .ok c
      | (c, false) =>
        match applyBlockReturn env c i with
        | .err => .err
        | .ub => .ub
        | .ok (c, true) => .ok c
        | .ok (c, false) =>
          match applyFastcgi env c i with
          | (c, true) => .ok c
          | (c, false) => serveFile env c i

/-- evbuffer_readln with EVBUFFER_EOL_CRLF_STRICT: the text before the first CRLF and what
follows it -/
def readLine : Bytes → Option (Bytes × Bytes)
  | [] => none
  | 13 :: 10 :: r => some ([], r)
  | c :: r => (readLine r).map fun (l, t) => (c :: l, t)

/-- server.c:963-1061, client_read.  parse_iri works on the request in place; on failure the
members it had already stored are dropped here (they only matter to whether the failure is
logged). -/
def clientRead (c : Client) : Res Client :=
  if c.type ≠ .undecided then .ok c
  else if c.inp.length > 1024 + 2 then .ok (startReply env c 59 b%"bad request")
  else
    match readLine c.inp with
    | none => .ok c
    | some (req, rest) =>
      let c := { c with inp := rest }
      if req.length > 1024 + 2 then .ok (startReply env c 59 b%"bad request")
      else if (0 : UInt8) ∈ req then .ok (startReply env c 59 b%"bad request")
      else
        match parseIri env.isAddr req with
        | .ub => .ub
        | .err => .ok (startReply env c 59 b%"bad request")
        | .ok i =>
          match env.puny i.host with
          | none => .ok (startReply env c 59 b%"bad request")
          | some decoded => dispatch env { c with iri := some i } i decoded

/-- server.c:1265-1306, client_close: the connection is gone (resources: Model/Close.lean) -/
def clientClose (c : Client) : Client := { c with closed := true, effs := c.effs ++ [.close] }

/-- the three conditions client_error distinguishes -/
inductive ErrKind where
  | timeout | eof | error
  deriving Repr, DecidableEq

/-- server.c:1128-1151, client_error -/
def clientError (k : ErrKind) (c : Client) : Client :=
  let c := { c with type := .done }
  match k with
  | .timeout => if c.code = 0 then startReply env c 59 b%"timeout" else clientClose c
  | _ => clientClose c

/-- server.c:1098-1101: one line of a directory listing.  `name` has PATH_MAX bytes, and
encode_path stores a terminated prefix when the escaped name does not fit. -/
def dirLine (d : Dirent) : Res Bytes :=
  match encodePath 4096 d.name with
  | none => .ub
  | some (buf, _) => .ok (b%"=> ./" ++ cstr buf ++ (if d.isDir then b%"/" else []) ++ b%"\n")

/-- server.c:1094-1102, the loop -/
def dirLines : List Dirent → Res Bytes
  | [] => .ok []
  | d :: r =>
    match dirLine d with
    | .ok l => match dirLines r with
      | .ok t => .ok (l ++ t)
      | .err => .err
      | .ub => .ub
    | .err => .err
    | .ub => .ub

/-- server.c:1063-1126, client_write.  `bufsiz` is BUFSIZ; `rd` is the outcome of read(2) on pfd,
`none` for -1. -/
def clientWrite (bufsiz : Nat) (rd : Option Bytes) (c : Client) : Res Client :=
  match c.type with
  | .undecided => .ok c
  | .file =>
    match rd with
    | none => .ok (clientError env .error c)
    | some [] => .ok (clientClose c)
    | some data =>
      .ok { c with type := (if data.length ≠ bufsiz then .done else c.type), out := c.out ++ data }
  | .dir =>
    match dirLines c.dir with
    | .ok t => .ok { c with out := c.out ++ t, dir := [], type := .done }
    | .err => .err
    | .ub => .ub
  | .fcgi => .ok c
  | .proxy => .ok c
  | .done => .ok (if c.out = [] then clientClose c else c)

/-- server.c:388-429, handle_handshake once the TLS handshake is done; `sni` is
tls_conn_servername.  puny_decode of a NULL name yields the empty string (puny.c:230-233). -/
def handshakeDone (sni : Option Bytes) (c : Client) : Client :=
  match (match sni with | none => some [] | some s => env.puny s) with
  | none => startReply env c 59 b%"Wrong/malformed host"
  | some d =>
    -- strlcpy into domain[254]: on overflow the name becomes empty
    let d := if d = [] then (if env.addrName.length ≥ 254 then [] else env.addrName) else d
    let c := { c with domain := d }
    match findHost env.fnm d env.hosts with
    | some h => { c with host := some h }
    | none => startReply env c 59 b%"Wrong/malformed host"

/-- What libevent and libtls can report on a connection whose handshake is done. -/
inductive Ev where
  | read (data : Bytes)                       -- tls_read delivered bytes
  | writable (n : Nat) (rd : Option Bytes)    -- tls_write accepts n bytes; then read(2) gives rd
  | failed (k : ErrKind)                      -- timeout, EOF or error on either side
  deriving Repr

/-- server.c:856-961, client_tls_readcb and client_tls_writecb: one event.  The cases in which
tls_read/tls_write want to be retried change nothing and are omitted.  Nothing happens once the
connection is closed (its events are deleted). -/
def step (bufsiz : Nat) (ev : Ev) (c : Client) : Res Client :=
  if c.closed then .ok c
  else
    match ev with
    | .read data => clientRead env { c with inp := c.inp ++ data }
    | .writable n rd =>
      let c := { c with sent := c.sent ++ c.out.take n, out := c.out.drop n }
      if c.out = [] then clientWrite env bufsiz rd c else .ok c
    | .failed k => .ok (clientError env k c)

end

/-- a history: events, each with the environment at that moment -/
def runEvents (bufsiz : Nat) : List (Env × Ev) → Client → Res Client
  | [], c => .ok c
  | (env, ev) :: r, c =>
    match step env bufsiz ev c with
    | .ok c => runEvents bufsiz r c
    | .err => .err
    | .ub => .ub

end Gmid

import Verif.Model.Parse
import Verif.Model.Vhost

/-!
# Model of the semantic actions of parse.y

The configuration file after yacc has recognised it: a list of directives, each in the order in which its actions run.
yacc itself (the recognition of the grammar, and its error recovery) is not modelled: a syntax error makes the file
be refused (yyerror counts it).  Parameters: `resolve` is getaddrinfo(3) on a host (none for `*`) and a service, with
getnameinfo(3) succeeding; `serv` is getservbyname(3) for tcp then udp; `protos` is tls_config_parse_protocols(3).
Warnings are not modelled.
-/

set_option autoImplicit false

namespace Gmid

/-- what the C library answers -/
structure PEnv where
  resolve : Option Bytes → Bytes → Option (List AddrInfo)
  serv : Bytes → Option UInt16
  protos : Bytes → Option Nat

/-- the options of the rules locopt and fastcgiopt (parse.y:568-668), and `param` of servopt (parse.y:416-420) -/
inductive LocOpt where
  | autoIndex (b : Bool)
  /-- BLOCK RETURN NUM string, and without the string -/
  | blockReturn (code : Int) (text : Option Bytes)
  | block
  | defaultType (s : Bytes)
  | fcgiOff
  | fcgiParam (name value : Bytes)
  /-- SOCKET string, FASTCGI string (no port), SOCKET TCP string [PORT ...] -/
  | fcgiSocket (path : Bytes) (port : Option Bytes)
  | fcgiStrip (n : Int)
  | index (s : Bytes)
  | lang (s : Bytes)
  | log (b : Bool)
  | requireCa (path : Bytes)
  | root (s : Bytes)
  | strip (n : Int)
  deriving Repr, DecidableEq

/-- the rule proxy_port (parse.y:476-483) -/
inductive PortArg where
  | none
  | name (s : Bytes)
  | num (n : Int)
  deriving Repr, DecidableEq

/-- the rule proxy_match (parse.y:485-502) -/
inductive ProxyMatch where
  | proto (s : Bytes)
  | forHost (s : Bytes) (port : PortArg)
  deriving Repr, DecidableEq

/-- the rule proxy_opt (parse.y:508-549) -/
inductive ProxyOpt where
  | cert (s : Bytes)
  | key (s : Bytes)
  | protocols (s : Bytes)
  | proxyV1
  | relayTo (s : Bytes) (port : PortArg)
  | requireCa (path : Bytes)
  | sni (s : Bytes)
  | useTls (b : Bool)
  | verifyName (b : Bool)
  deriving Repr, DecidableEq

/-- the rules servopt, location and proxy (parse.y:380-565).  The port of `listen on` is its text. -/
inductive SrvOpt where
  | alias (s : Bytes)
  | cert (s : Bytes)
  | cgi (s : Bytes)
  | key (s : Bytes)
  | ocsp (s : Bytes)
  | listen (host : Option Bytes) (port : Bytes) (proxyV1 : Bool)
  | opt (o : LocOpt)
  | location (path : Bytes) (opts : List LocOpt)
  | proxy (ms : List ProxyMatch) (opts : List ProxyOpt)
  deriving Repr, DecidableEq

/-- the rules option, log, vhost and types (parse.y:236-371, 670-692) -/
inductive Directive where
  | chroot (s : Bytes)
  | ipv6 (b : Bool)
  | port (n : Int)
  | prefork (n : Int)
  | protocols (s : Bytes)
  | user (s : Bytes)
  | logAccess (s : Bytes)
  | logStyle (s : Bytes)
  | syslogFacility (s : Bytes)
  | syslogOff
  | syslog
  | server (name : Bytes) (body : List SrvOpt)
  | types (ts : List (Bytes × List Bytes))
  deriving Repr, DecidableEq

/-- struct location (gmid.h:184-206) as the parser fills it -/
structure CLoc where
  pat : Bytes := []
  lang : Bytes := []
  defaultMime : Bytes := []
  index : Bytes := []
  autoIndex : Int := 0
  blockCode : Int := 0
  blockFmt : Bytes := []
  strip : Int := 0
  reqcaPath : Option Bytes := none
  disableLog : Bool := false
  fcgi : Int := -1
  nofcgi : Bool := false
  fcgiStrip : Int := 0
  params : List (Bytes × Bytes) := []
  dir : Bytes := []
  deriving Repr, DecidableEq

/-- struct proxy (gmid.h:157-181); `protocols` starts as TLS_PROTOCOLS_DEFAULT, 24 (utils.c:491-499) -/
structure CProxy where
  matchProto : Bytes := []
  matchHost : Bytes := []
  matchPort : Bytes := []
  host : Bytes := []
  port : Bytes := []
  sni : Bytes := []
  notls : Bool := false
  protocols : Nat := 24
  noverifyname : Bool := false
  certPath : Option Bytes := none
  keyPath : Option Bytes := none
  reqcaPath : Option Bytes := none
  proxy : Bool := false
  deriving Repr, DecidableEq

/-- struct vhost (gmid.h:209-241): `locs` are all its locations, the first being the default one; the static pointers
`loc` and `proxy` of parse.y always point to the last element of their list -/
structure CHost where
  domain : Bytes
  certPath : Option Bytes := none
  keyPath : Option Bytes := none
  ocspPath : Option Bytes := none
  addrs : List LAddr := []
  locs : List CLoc := []
  aliases : List Bytes := []
  proxies : List CProxy := []
  deriving Repr, DecidableEq

/-- struct conf (gmid.h:258-280), the variables default_host and default_port, and file->errors -/
structure CConf where
  chroot : Bytes := []
  user : Bytes := []
  prefork : Int := 3
  protos : Nat := 24
  logSyslog : Bool := true
  logFacility : Nat := 24
  logAccess : Option Bytes := none
  logFormat : Nat := 3
  mime : MimeTab := initMime
  fcgi : List FcgiEp := []
  addrs : List LAddr := []
  hosts : List CHost := []
  defaultHost : Option Bytes := none
  defaultPort : Int := 1965
  errors : Nat := 0
  deriving Repr, DecidableEq

/-- strlcpy(3) in a field of `n` bytes -/
def fld (n : Nat) (s : Bytes) : Bytes := s.take (n - 1)

/-- the error of `if (strlcpy(...) >= n) yyerror(...)` -/
def tooLong (n : Nat) (s : Bytes) : Nat := if s.length ≥ n then 1 else 0

/-- parse.y:1219-1225, ensure_absolute_path: the number of errors -/
def ensureAbs (s : Bytes) : Nat := if hd s ≠ c%'/' then 1 else 0

/-- parse.y:1330-1346, getservice; -1 is failure -/
def getservice (env : PEnv) (s : Bytes) : Int :=
  match strtonum s 0 65535 with
  | (v, none) => v
  | (_, some _) =>
    match env.serv s with
    | some p => p.toNat
    | none => -1

/-- parse.y:476-483, proxy_port: the number (an int, as that of the token) and the errors -/
def proxyPort (env : PEnv) : PortArg → Int × Nat
  | .none => (1965, 0)
  | .name s => (getservice env s, if getservice env s = -1 then 1 else 0)
  | .num n => (llToInt n, 0)

/-- parse.y:568-668, the actions of locopt and of fastcgi, on the current location: the FastCGI endpoints of the configuration, the
location, the number of errors.  (add_param is parse.y:1314-1328.) -/
def locAction (fs : List FcgiEp) (l : CLoc) : LocOpt → Res (List FcgiEp × CLoc × Nat)
  | .autoIndex b => .ok (fs, { l with autoIndex := if b then 1 else -1 }, 0)
  | .blockReturn n (some s) =>
    match checkBlockFmt s with
    | .ub => .ub
    | .err => .err
    | .ok good =>
      .ok (fs, { l with blockFmt := fld 1027 s, blockCode := n },
        (if good then 0 else 1) + tooLong 1027 s + (if checkBlockCode n then 0 else 1))
  | .blockReturn n none =>
    .ok (fs, { l with blockFmt := b%"temporary failure", blockCode := n },
      (if checkBlockCode n then 0 else 1) + (if n ≥ 30 ∧ n < 40 then 1 else 0))
  | .block => .ok (fs, { l with blockFmt := b%"temporary failure", blockCode := 40 }, 0)
  | .defaultType s => .ok (fs, { l with defaultMime := fld 128 s }, tooLong 128 s)
  | .fcgiOff => .ok (fs, { l with fcgi := -1, nofcgi := true }, 0)
  | .fcgiParam n v => .ok (fs, { l with params := l.params ++ [(fld 511 n, fld 511 v)] }, tooLong 511 n + tooLong 511 v)
  | .fcgiSocket path port =>
    match fastcgiConf fs path port with
    | .ub => .ub
    | .err => .err
    | .ok (fs', i, e) => .ok (fs', { l with fcgi := i }, e)
  | .fcgiStrip n => .ok (fs, { l with fcgiStrip := n }, 0)
  | .index s => .ok (fs, { l with index := fld 4096 s }, tooLong 4096 s)
  | .lang s => .ok (fs, { l with lang := fld 32 s }, tooLong 32 s)
  | .log b => .ok (fs, { l with disableLog := !b }, 0)
  | .requireCa s => .ok (fs, { l with reqcaPath := some s }, ensureAbs s)
  | .root s => .ok (fs, { l with dir := fld 4096 s }, tooLong 4096 s)
  | .strip n => .ok (fs, { l with strip := n }, if checkStripNo n then 0 else 1)

/-- parse.y:564-566, locopts -/
def locActions (fs : List FcgiEp) (l : CLoc) : List LocOpt → Res (List FcgiEp × CLoc × Nat)
  | [] => .ok (fs, l, 0)
  | o :: r =>
    match locAction fs l o with
    | .ub => .ub
    | .err => .err
    | .ok (fs', l', e) =>
      match locActions fs' l' r with
      | .ub => .ub
      | .err => .err
      | .ok (fs'', l'', e') => .ok (fs'', l'', e + e')

/-- parse.y:485-502, proxy_match -/
def proxyMatchAction (env : PEnv) (p : CProxy) : ProxyMatch → CProxy × Nat
  | .proto s => ({ p with matchProto := fld 32 s }, tooLong 32 s)
  | .forHost s port =>
    ({ p with matchHost := fld 256 s, matchPort := fld 32 (intDec (proxyPort env port).1) }, (proxyPort env port).2 + tooLong 256 s)

/-- parse.y:508-549, proxy_opt.  (cert and key free proxy->cert and proxy->key, which are NULL, instead of the path set
before, which leaks.) -/
def proxyOptAction (env : PEnv) (p : CProxy) : ProxyOpt → CProxy × Nat
  | .cert s => ({ p with certPath := some s }, ensureAbs s)
  | .key s => ({ p with keyPath := some s }, ensureAbs s)
  | .protocols s =>
    match env.protos s with
    | some v => ({ p with protocols := v }, 0)
    | none => (p, 1)
  | .proxyV1 => ({ p with proxy := true }, 0)
  | .relayTo s port => ({ p with host := fld 256 s, port := fld 32 (intDec (proxyPort env port).1) }, (proxyPort env port).2 + tooLong 256 s)
  | .requireCa s => ({ p with reqcaPath := some s }, ensureAbs s)
  | .sni s => ({ p with sni := fld 255 s }, tooLong 255 s)
  | .useTls b => ({ p with notls := !b }, 0)
  | .verifyName b => ({ p with noverifyname := !b }, 0)

/-- the actions of a list, one after the other, adding up their errors -/
def runActions {σ α : Type} (f : σ → α → σ × Nat) (s : σ) : List α → σ × Nat
  | [] => (s, 0)
  | a :: r =>
    let x := f s a
    let y := runActions f x.1 r
    (y.1, x.2 + y.2)

/-- parse.y:461-470, proxy (and advance_proxy, 1281-1286): the new proxy block and its errors -/
def proxyAction (env : PEnv) (ms : List ProxyMatch) (opts : List ProxyOpt) : CProxy × Nat :=
  let a := runActions (proxyMatchAction env) {} ms
  let b := runActions (proxyOptAction env) a.1 opts
  let e1 := if b.1.host = [] then 1 else 0
  let e2 := if (b.1.certPath = none ∧ b.1.keyPath ≠ none) ∨ (b.1.certPath ≠ none ∧ b.1.keyPath = none) then 1 else 0
  (b.1, a.2 + b.2 + e1 + e2)

/-- parse.y:554-558: the leading slash is dropped -/
def dropSlash : Bytes → Bytes
  | [] => []
  | c :: r => if c = c%'/' then r else c :: r

/-- the last element of a list is replaced (the static pointers `loc` and `proxy`) -/
def setLast {α : Type} (a : α) : List α → List α
  | [] => []
  | [_] => [a]
  | x :: r => x :: setLast a r

/-- what the actions inside a server block work on -/
structure SrvSt where
  fcgi : List FcgiEp
  confAddrs : List LAddr
  host : CHost
  errors : Nat
  deriving Repr, DecidableEq

/-- parse.y:385-565, the actions of servopt, proxy and location.  A locopt of the server works on `loc`, the last location
added; there is always one. -/
def srvAction (env : PEnv) (s : SrvSt) : SrvOpt → Res SrvSt
  | .alias a => .ok { s with host := { s.host with aliases := s.host.aliases ++ [fld 256 a] }, errors := s.errors + tooLong 256 a }
  | .cert p => .ok { s with host := { s.host with certPath := some p }, errors := s.errors + ensureAbs p }
  | .cgi _ => .ok { s with errors := s.errors + 1 }
  | .key p => .ok { s with host := { s.host with keyPath := some p }, errors := s.errors + ensureAbs p }
  | .ocsp p => .ok { s with host := { s.host with ocspPath := some p }, errors := s.errors + ensureAbs p }
  | .listen h port v1 =>
    match env.resolve h port with
    | none => .ok { s with errors := s.errors + 1 }
    | some ais =>
      match listenOn s.host.addrs s.confAddrs v1 ais with
      | .ub => .ub
      | .err => .err
      | .ok (hq, cq, e) => .ok { s with host := { s.host with addrs := hq }, confAddrs := cq, errors := s.errors + e }
  | .opt o =>
    match s.host.locs.getLast? with
    | none => .ub
    | some l =>
      match locAction s.fcgi l o with
      | .ub => .ub
      | .err => .err
      | .ok (fs, l', e) => .ok { s with fcgi := fs, host := { s.host with locs := setLast l' s.host.locs }, errors := s.errors + e }
  | .location path opts =>
    match locActions s.fcgi {} opts with
    | .ub => .ub
    | .err => .err
    | .ok (fs, l, e) =>
      .ok { s with
        fcgi := fs
        host := { s.host with locs := s.host.locs ++ [{ l with pat := fld 128 (dropSlash path) }] }
        errors := s.errors + e + tooLong 128 (dropSlash path) }
  | .proxy ms opts =>
    let p := proxyAction env ms opts
    .ok { s with host := { s.host with proxies := s.host.proxies ++ [p.1] }, errors := s.errors + p.2 }

/-- parse.y:373-377, servbody -/
def srvActions (env : PEnv) (s : SrvSt) : List SrvOpt → Res SrvSt
  | [] => .ok s
  | o :: r =>
    match srvAction env s o with
    | .ub => .ub
    | .err => .err
    | .ok s' => srvActions env s' r

/-- parse.y:328-370, vhost: the host as it is at the opening brace -/
def newHost (name : Bytes) : CHost := { domain := fld 256 name, locs := [{ pat := b%"*" }] }

/-- parse.y:349-369: the closing brace; without `listen on` the default host and port are used -/
def closeHost (env : PEnv) (dh : Option Bytes) (dp : Int) (s : SrvSt) : Res SrvSt :=
  let s := if s.host.certPath = none ∨ s.host.keyPath = none then { s with errors := s.errors + 1 } else s
  if s.host.addrs = [] then srvAction env s (.listen dh (intDec dp) false) else .ok s

/-- parse.y:670-692, medianamesl: the extensions of a type are added one by one -/
def addExts (m : MimeTab) (mt : Bytes) : List Bytes → Res MimeTab
  | [] => .ok m
  | x :: r =>
    match addMime true m mt x with
    | .ub => .ub
    | .err => .err
    | .ok (_, false) => .err
    | .ok (m', true) => addExts m' mt r

/-- parse.y:670-692, types -/
def addTypes (m : MimeTab) : List (Bytes × List Bytes) → Res MimeTab
  | [] => .ok m
  | t :: r =>
    match addExts m t.1 t.2 with
    | .ub => .ub
    | .err => .err
    | .ok m' => addTypes m' r

/-- strcasecmp(3) == 0 -/
def caseEq (a b : Bytes) : Bool := decide (a.map toLower = b.map toLower)

/-- parse.y:303-320: the facilities, with their number (LOG_FTP exists) -/
def facilities : List (Bytes × Nat) :=
  [(b%"daemon", 24), (b%"ftp", 88), (b%"local1", 136), (b%"local2", 144), (b%"local3", 152), (b%"local4", 160), (b%"local5", 168),
   (b%"local6", 176), (b%"local7", 184), (b%"user", 8)]

/-- parse.y:294-326, the facility named, if it is known (else there is a warning).  strncasecmp(str, "LOG_", 4). -/
def facilityOf (s : Bytes) : Option Nat :=
  let str := if decide ((s.take 4).map toLower = b%"log_") then s.drop 4 else s
  (facilities.find? fun f => caseEq str f.1).map (·.2)

/-- parse.y:281-292: the log styles (gmid.h:102-107) -/
def styleOf (s : Bytes) : Option Nat :=
  if s = b%"combined" then some 2
  else if s = b%"common" then some 1
  else if s = b%"condensed" then some 0
  else if s = b%"legacy" then some 3
  else none

/-- parse.y:236-371, 670-692: the actions of a top-level directive.  LOGIN_NAME_MAX is 256. -/
def confAction (env : PEnv) (c : CConf) : Directive → Res CConf
  | .chroot s => .ok { c with chroot := fld 4096 s, errors := c.errors + tooLong 4096 s }
  | .ipv6 b => .ok { c with defaultHost := if b then none else some b%"0.0.0.0" }
  | .port n => .ok { c with defaultPort := n }
  | .prefork n => .ok { c with prefork := n, errors := c.errors + if checkPreforkNum n then 0 else 1 }
  | .protocols s =>
    match env.protos s with
    | some v => .ok { c with protos := v }
    | none => .ok { c with errors := c.errors + 1 }
  | .user s => .ok { c with user := fld 256 s, errors := c.errors + tooLong 256 s }
  | .logAccess s => .ok { c with logAccess := some s }
  | .logStyle s =>
    match styleOf s with
    | some v => .ok { c with logFormat := v }
    | none => .ok { c with errors := c.errors + 1 }
  | .syslogFacility s => .ok { c with logSyslog := true, logFacility := (facilityOf s).getD c.logFacility }
  | .syslogOff => .ok { c with logSyslog := false }
  | .syslog => .ok { c with logSyslog := true }
  | .server name body =>
    match srvActions env ⟨c.fcgi, c.addrs, newHost name, c.errors + tooLong 256 name⟩ body with
    | .ub => .ub
    | .err => .err
    | .ok s =>
      match closeHost env c.defaultHost c.defaultPort s with
      | .ub => .ub
      | .err => .err
      | .ok s => .ok { c with fcgi := s.fcgi, addrs := s.confAddrs, hosts := s.host :: c.hosts, errors := s.errors }
  | .types ts =>
    match addTypes c.mime ts with
    | .ub => .ub
    | .err => .err
    | .ok m => .ok { c with mime := m }

/-- parse.y:155-163, conf: the directives in order -/
def confActions (env : PEnv) (c : CConf) : List Directive → Res CConf
  | [] => .ok c
  | d :: r =>
    match confAction env c d with
    | .ub => .ub
    | .err => .err
    | .ok c' => confActions env c' r

/-- the same struct location in Model/Vhost.lean; `ca` gives the X509_STORE loaded from a file (config.c:684-700), `fd` the descriptor of a
directory (server.c:1534-1556) -/
def CLoc.toLocation (ca : Bytes → Nat) (fd : Bytes → Int) (l : CLoc) : Location where
  pat := l.pat
  lang := l.lang
  defaultMime := l.defaultMime
  index := l.index
  autoIndex := l.autoIndex
  blockCode := l.blockCode
  blockFmt := l.blockFmt
  strip := l.strip
  reqca := l.reqcaPath.map ca
  disableLog := l.disableLog
  fcgi := l.fcgi
  nofcgi := l.nofcgi
  dir := l.dir
  dirfd := if l.dir = [] then -1 else fd l.dir

/-- the same struct proxy in Model/Vhost.lean -/
def CProxy.toProxy (ca : Bytes → Nat) (p : CProxy) : Proxy where
  matchProto := p.matchProto
  matchHost := p.matchHost
  matchPort := p.matchPort
  host := p.host
  port := p.port
  notls := p.notls
  reqca := p.reqcaPath.map ca
  proxy := p.proxy

/-- the same struct vhost in Model/Vhost.lean -/
def CHost.toVhost (ca : Bytes → Nat) (fd : Bytes → Int) (h : CHost) : Vhost where
  domain := h.domain
  aliases := h.aliases
  dflt := (h.locs.headD {}).toLocation ca fd
  locs := h.locs.tail.map (CLoc.toLocation ca fd)
  proxies := h.proxies.map (CProxy.toProxy ca)

/-- parse.y:1124-1157, parse_conf: `.ok (c, true)` when it succeeds -/
def parseConf (env : PEnv) (c : CConf) (ds : List Directive) : Res (CConf × Bool) :=
  match confActions env { c with defaultHost := none, defaultPort := 1965, errors := 0 } ds with
  | .ub => .ub
  | .err => .err
  | .ok c => .ok (c, c.errors = 0)

/-- config.c:33-55, config_new -/
def confNew : CConf := {}

/-- config.c:58-162, config_purge: everything is cleared but for log_format; prefork becomes 0 -/
def confPurge (c : CConf) : CConf := { logFormat := c.logFormat, prefork := 0 }

/-- gmid.c:311-342, in main: after parse_conf.  `home` is getpwnam(3)'s pw_dir; `none`: the program exits. -/
def mainStart (env : PEnv) (home : Bytes → Option Bytes) (ds : List Directive) : Option CConf :=
  match parseConf env confNew ds with
  | .ok (c, true) =>
    if c.chroot ≠ [] ∧ c.user = [] then none
    else if c.user = [] then some c
    else
      match home c.user with
      | none => none
      | some d => some (if c.chroot = [] then { c with chroot := fld 4096 d } else c)
  | _ => none

/-- gmid.c:483-509, in main_reload: the new struct conf; `none` when the configuration is not used.  prefork is put back. -/
def mainReload (env : PEnv) (c : CConf) (ds : List Directive) : Option CConf :=
  match parseConf env (confPurge c) ds with
  | .ok (c', true) => some { c' with prefork := c.prefork }
  | _ => none

/-- gmid.c:412-431, in main_send_logfd: the file opened for the access log; `none` when there is none or its path
is too long -/
def accessLogPath (c : CConf) : Option Bytes :=
  match c.logAccess with
  | none => none
  | some a =>
    let path := c.chroot ++ (if c.chroot = [] then [] else b%"/") ++ a
    if path.length ≥ 4096 then none else some path

end Gmid

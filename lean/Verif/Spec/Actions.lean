import Verif.Model.Actions
import Verif.Spec.Parse
import Verif.Spec.Iri

/-!
# Specification: what a configuration file means

A file is a list of directives.  Where an option may be given once, the last one counts.
-/

set_option autoImplicit false

namespace Gmid.Spec

/-- the value of the last of the directives that have one -/
def lastOf {α β : Type} (f : α → Option β) (l : List α) : Option β := (l.filterMap f).getLast?

/-! ## Options of a location -/

def langOf : LocOpt → Option Bytes | .lang s => some s | _ => none
def defaultTypeOf : LocOpt → Option Bytes | .defaultType s => some s | _ => none
def indexOf : LocOpt → Option Bytes | .index s => some s | _ => none
def autoIndexOf : LocOpt → Option Int | .autoIndex b => some (if b then 1 else -1) | _ => none
/-- the reply: its code and text -/
def blockOf : LocOpt → Option (Int × Bytes)
  | .blockReturn n s => some (n, s.getD b%"temporary failure")
  | .block => some (40, b%"temporary failure")
  | _ => none
def stripOf : LocOpt → Option Int | .strip n => some n | _ => none
def requireCaOf : LocOpt → Option Bytes | .requireCa s => some s | _ => none
def logOf : LocOpt → Option Bool | .log b => some b | _ => none
/-- `fastcgi off`, or an endpoint -/
def fcgiOf : LocOpt → Option (Option (Bytes × Option Bytes)) | .fcgiOff => some none | .fcgiSocket p q => some (some (p, q)) | _ => none
def isFcgiOff : LocOpt → Bool | .fcgiOff => true | _ => false
def fcgiStripOf : LocOpt → Option Int | .fcgiStrip n => some n | _ => none
def paramOf : LocOpt → Option (Bytes × Bytes) | .fcgiParam n v => some (n, v) | _ => none
def rootOf : LocOpt → Option Bytes | .root s => some s | _ => none

/-- the index of the endpoint, -1 without one -/
def fcgiIndex (fs : List FcgiEp) : Option (Option (Bytes × Option Bytes)) → Int
  | some (some d) => (fs.idxOf (endpoint d) : Int)
  | _ => -1

/-- the location with these options; `fs` are the endpoints of the configuration, of which the location has the index -/
def locValue (fs : List FcgiEp) (pat : Bytes) (os : List LocOpt) : CLoc where
  pat := pat
  lang := (lastOf langOf os).getD []
  defaultMime := (lastOf defaultTypeOf os).getD []
  index := (lastOf indexOf os).getD []
  autoIndex := (lastOf autoIndexOf os).getD 0
  blockCode := ((lastOf blockOf os).map (·.1)).getD 0
  blockFmt := ((lastOf blockOf os).map (·.2)).getD []
  strip := (lastOf stripOf os).getD 0
  reqcaPath := lastOf requireCaOf os
  disableLog := ((lastOf logOf os).map (!·)).getD false
  fcgi := fcgiIndex fs (lastOf fcgiOf os)
  nofcgi := os.any isFcgiOff
  fcgiStrip := (lastOf fcgiStripOf os).getD 0
  params := os.filterMap paramOf
  dir := (lastOf rootOf os).getD []

/-- a valid option -/
def LocOptOk : LocOpt → Prop
  | .blockReturn n (some s) => (10 ≤ n ∧ n < 70 ∧ ¬ (20 ≤ n ∧ n ≤ 29)) ∧ BlockFmt s ∧ s.length ≤ 1026
  | .blockReturn n none => (10 ≤ n ∧ n < 70 ∧ ¬ (20 ≤ n ∧ n ≤ 29)) ∧ ¬ (30 ≤ n ∧ n < 40)
  | .defaultType s => s.length ≤ 127
  | .fcgiParam n v => n.length ≤ 510 ∧ v.length ≤ 510
  | .fcgiSocket p q => p.length ≤ 4095 ∧ (q.getD []).length ≤ 31
  | .index s => s.length ≤ 4095
  | .lang s => s.length ≤ 31
  | .requireCa s => s.head? = some c%'/'
  | .root s => s.length ≤ 4095
  | .strip n => 0 < n
  | _ => True

/-! ## Proxy blocks -/

/-- the port number: 1965 unless given; a number (an int), a numeral up to 65535 or the name of a service -/
def portValue (env : PEnv) : PortArg → Option Int
  | .none => some 1965
  | .num n => some (llToInt n)
  | .name s =>
    match strtonum s 0 65535 with
    | (v, none) => some v
    | _ => (env.serv s).map fun p => (p.toNat : Int)

def protoOf : ProxyMatch → Option Bytes | .proto s => some s | _ => none
def forHostOf : ProxyMatch → Option (Bytes × PortArg) | .forHost s p => some (s, p) | _ => none
def pCertOf : ProxyOpt → Option Bytes | .cert s => some s | _ => none
def pKeyOf : ProxyOpt → Option Bytes | .key s => some s | _ => none
def pProtocolsOf : ProxyOpt → Option Bytes | .protocols s => some s | _ => none
def pRelayOf : ProxyOpt → Option (Bytes × PortArg) | .relayTo s p => some (s, p) | _ => none
def pRequireCaOf : ProxyOpt → Option Bytes | .requireCa s => some s | _ => none
def pSniOf : ProxyOpt → Option Bytes | .sni s => some s | _ => none
def pUseTlsOf : ProxyOpt → Option Bool | .useTls b => some b | _ => none
def pVerifyOf : ProxyOpt → Option Bool | .verifyName b => some b | _ => none

/-- a host, or none: empty -/
def hostText (x : Option (Bytes × PortArg)) : Bytes := (x.map (·.1)).getD []
/-- the port that goes with it, in decimal -/
def portText (env : PEnv) (x : Option (Bytes × PortArg)) : Bytes := ((x.bind fun y => portValue env y.2).map intDec).getD []

def proxyValue (env : PEnv) (x : List ProxyMatch × List ProxyOpt) : CProxy where
  matchProto := (lastOf protoOf x.1).getD []
  matchHost := hostText (lastOf forHostOf x.1)
  matchPort := portText env (lastOf forHostOf x.1)
  host := hostText (lastOf pRelayOf x.2)
  port := portText env (lastOf pRelayOf x.2)
  sni := (lastOf pSniOf x.2).getD []
  notls := ((lastOf pUseTlsOf x.2).map (!·)).getD false
  protocols := ((lastOf pProtocolsOf x.2).bind env.protos).getD 24
  noverifyname := ((lastOf pVerifyOf x.2).map (!·)).getD false
  certPath := lastOf pCertOf x.2
  keyPath := lastOf pKeyOf x.2
  reqcaPath := lastOf pRequireCaOf x.2
  proxy := x.2.any (fun o => decide (o = .proxyV1))

def ProxyMatchOk (env : PEnv) : ProxyMatch → Prop
  | .proto s => s.length ≤ 31
  | .forHost s p => s.length ≤ 255 ∧ portValue env p ≠ none

def ProxyOptOk (env : PEnv) : ProxyOpt → Prop
  | .cert s => s.head? = some c%'/'
  | .key s => s.head? = some c%'/'
  | .protocols s => env.protos s ≠ none
  | .relayTo s p => s.length ≤ 255 ∧ portValue env p ≠ none
  | .requireCa s => s.head? = some c%'/'
  | .sni s => s.length ≤ 254
  | _ => True

/-- a valid proxy block: it says where to relay to, and has a certificate exactly when it has a key -/
def ProxyOk (env : PEnv) (ms : List ProxyMatch) (os : List ProxyOpt) : Prop :=
  (∀ m ∈ ms, ProxyMatchOk env m) ∧ (∀ o ∈ os, ProxyOptOk env o) ∧ (∃ s p, lastOf pRelayOf os = some (s, p) ∧ s ≠ []) ∧
  (lastOf pCertOf os = none ↔ lastOf pKeyOf os = none)

/-! ## Servers -/

def aliasOf : SrvOpt → Option Bytes | .alias s => some s | _ => none
def certOf : SrvOpt → Option Bytes | .cert s => some s | _ => none
def keyOf : SrvOpt → Option Bytes | .key s => some s | _ => none
def ocspOf : SrvOpt → Option Bytes | .ocsp s => some s | _ => none
def proxyOf : SrvOpt → Option (List ProxyMatch × List ProxyOpt) | .proxy a b => some (a, b) | _ => none
def optOf : SrvOpt → Option LocOpt | .opt o => some o | _ => none
def locationOf : SrvOpt → Option (Bytes × List LocOpt) | .location p os => some (p, os) | _ => none
def listenOf : SrvOpt → Option (Option Bytes × Bytes × Bool) | .listen h p v => some (h, p, v) | _ => none

/-- the path of a location without its leading slash -/
def noSlash (p : Bytes) : Bytes := if p.head? = some c%'/' then p.tail else p

/-- the locations of a server: the default one, that has the options of the server, and those written in it -/
def serverLocs (fs : List FcgiEp) (body : List SrvOpt) : List CLoc :=
  locValue fs b%"*" (body.filterMap optOf) :: (body.filterMap locationOf).map fun x => locValue fs (noSlash x.1) x.2

/-- a server, but for its addresses -/
def hostValue (env : PEnv) (fs : List FcgiEp) (name : Bytes) (body : List SrvOpt) : CHost where
  domain := name
  certPath := lastOf certOf body
  keyPath := lastOf keyOf body
  ocspPath := lastOf ocspOf body
  addrs := []
  locs := serverLocs fs body
  aliases := body.filterMap aliasOf
  proxies := (body.filterMap proxyOf).map (proxyValue env)

/-- a host without its addresses -/
def noAddrs (h : CHost) : CHost := { h with addrs := [] }

/-- no option of the server is written after one of its locations -/
def OptsFirst (body : List SrvOpt) : Prop :=
  ∃ pre post, body = pre ++ post ∧ pre.filterMap locationOf = [] ∧ post.filterMap optOf = []

/-- the addresses of a `listen on`, each with its proxy-v1 setting -/
def resolved (env : PEnv) (l : Option Bytes × Bytes × Bool) : List (AddrInfo × Bool) := ((env.resolve l.1 l.2.1).getD []).map fun a => (a, l.2.2)

/-- the `listen on` directives of a server; without any there is one on the default host and port -/
def listensOf (dh : Option Bytes) (dp : Int) (body : List SrvOpt) : List (Option Bytes × Bytes × Bool) :=
  match body.filterMap listenOf with
  | [] => [(dh, intDec dp, false)]
  | l => l

def SrvOptOk (env : PEnv) : SrvOpt → Prop
  | .alias s => s.length ≤ 255
  | .cert s => s.head? = some c%'/'
  | .cgi _ => False
  | .key s => s.head? = some c%'/'
  | .ocsp s => s.head? = some c%'/'
  | .listen h p _ => env.resolve h p ≠ none
  | .opt o => LocOptOk o
  | .location p os => (noSlash p).length ≤ 127 ∧ ∀ o ∈ os, LocOptOk o
  | .proxy ms os => ProxyOk env ms os

/-! ## The whole file -/

def serverOf : Directive → Option (Bytes × List SrvOpt) | .server n b => some (n, b) | _ => none
def chrootOf : Directive → Option Bytes | .chroot s => some s | _ => none
def userOf : Directive → Option Bytes | .user s => some s | _ => none
def preforkOf : Directive → Option Int | .prefork n => some n | _ => none
def protocolsOf : Directive → Option Bytes | .protocols s => some s | _ => none
def logAccessOf : Directive → Option Bytes | .logAccess s => some s | _ => none
def logStyleOf : Directive → Option Bytes | .logStyle s => some s | _ => none
def ipv6Of : Directive → Option Bool | .ipv6 b => some b | _ => none
def portOf : Directive → Option Int | .port n => some n | _ => none
def typesOf : Directive → List Etm | .types ts => ts.flatMap fun t => t.2.map fun x => ⟨t.1, x⟩ | _ => []
/-- whether to log to syslog -/
def syslogOf : Directive → Option Bool | .syslogOff => some false | .syslog => some true | .syslogFacility _ => some true | _ => none

/-- the default host and port of the servers that come after these directives -/
def defaultHostOf (ds : List Directive) : Option Bytes := match lastOf ipv6Of ds with | some false => some b%"0.0.0.0" | _ => none
def defaultPortOf (ds : List Directive) : Int := (lastOf portOf ds).getD 1965

/-- the directives before each server, with it -/
def serversWithPrefix : List Directive → List Directive → List (List Directive × Bytes × List SrvOpt)
  | _, [] => []
  | pre, .server n b :: r => (pre, n, b) :: serversWithPrefix (pre ++ [.server n b]) r
  | pre, d :: r => serversWithPrefix (pre ++ [d]) r

/-- the `listen on` directives of the servers, in order -/
def fileListens (ds : List Directive) : List (List (Option Bytes × Bytes × Bool)) :=
  (serversWithPrefix [] ds).map fun x => listensOf (defaultHostOf x.1) (defaultPortOf x.1) x.2.2

/-- a valid directive -/
def DirectiveOk (env : PEnv) : Directive → Prop
  | .chroot s => s.length ≤ 4095
  | .prefork n => 0 < n ∧ n < 16
  | .protocols s => env.protos s ≠ none
  | .user s => s.length ≤ 255
  | .logStyle s => s ∈ [b%"combined", b%"common", b%"condensed", b%"legacy"]
  | .server n body => n.length ≤ 255 ∧ (∀ o ∈ body, SrvOptOk env o) ∧ lastOf certOf body ≠ none ∧ lastOf keyOf body ≠ none
  | _ => True

/-- a valid file: its directives are, its addresses exist, and none is wanted both with proxy-v1 and without -/
def FileOk (env : PEnv) (ds : List Directive) : Prop :=
  (∀ d ∈ ds, DirectiveOk env d) ∧ (∀ l ∈ (fileListens ds).flatten, env.resolve l.1 l.2.1 ≠ none) ∧
  (∀ l ∈ (fileListens ds).flatten, ∀ l' ∈ (fileListens ds).flatten, ∀ x ∈ resolved env l, ∀ y ∈ resolved env l', x.1 = y.1 → x.2 = y.2)

/-- the log styles -/
def logStyles : List (Bytes × Nat) := [(b%"condensed", 0), (b%"common", 1), (b%"combined", 2), (b%"legacy", 3)]
def styleNumber (s : Bytes) : Option Nat := (logStyles.find? fun x => decide (x.1 = s)).map (·.2)

/-- the documented syslog facilities, with their number (syslog.h) -/
def documentedFacilities : List (Bytes × Nat) :=
  [(b%"daemon", 24), (b%"ftp", 88), (b%"local0", 128), (b%"local1", 136), (b%"local2", 144), (b%"local3", 152), (b%"local4", 160),
   (b%"local5", 168), (b%"local6", 176), (b%"local7", 184), (b%"user", 8)]
/-- the name in any case, with or without LOG_ before it -/
def namesFacility (s name : Bytes) : Bool := decide (s.map lower = name ∨ s.map lower = b%"log_" ++ name)
def documentedFacility (s : Bytes) : Option Nat := (documentedFacilities.find? fun f => namesFacility s f.1).map (·.2)
/-- a facility that is known -/
def knownFacility (s : Bytes) : Option Nat := if namesFacility s b%"local0" then none else documentedFacility s
def facilityDirOf : Directive → Option Nat | .syslogFacility s => knownFacility s | _ => none

/-- the global settings the file leads to, those of `c0` where it has none -/
structure GlobalMeans (env : PEnv) (c0 : CConf) (ds : List Directive) (c : CConf) : Prop where
  chroot : c.chroot = (lastOf chrootOf ds).getD c0.chroot
  user : c.user = (lastOf userOf ds).getD c0.user
  prefork : c.prefork = (lastOf preforkOf ds).getD c0.prefork
  protos : c.protos = ((lastOf protocolsOf ds).bind env.protos).getD c0.protos
  logSyslog : c.logSyslog = (lastOf syslogOf ds).getD c0.logSyslog
  logAccess : c.logAccess = (lastOf logAccessOf ds).or c0.logAccess
  logFormat : c.logFormat = ((lastOf logStyleOf ds).bind styleNumber).getD c0.logFormat
  logFacility : c.logFacility = (lastOf facilityDirOf ds).getD c0.logFacility
  mime : c.mime.entries = c0.mime.entries ++ ds.flatMap typesOf

/-- nothing has been read yet -/
structure Fresh (c : CConf) : Prop where
  fcgi : c.fcgi = []
  addrs : c.addrs = []
  hosts : c.hosts = []
  mime : c.mime = initMime

/-! ## What the parser can work on -/

/-- the FastCGI directives of an option, a server and a file -/
def socketOf : LocOpt → Option (Bytes × Option Bytes) | .fcgiSocket p q => some (p, q) | _ => none
def srvSockets : SrvOpt → List (Bytes × Option Bytes) | .opt o => (socketOf o).toList | .location _ os => os.filterMap socketOf | _ => []
def dirSockets : Directive → List (Bytes × Option Bytes) | .server _ b => b.flatMap srvSockets | _ => []
def fileSockets (ds : List Directive) : List (Bytes × Option Bytes) := ds.flatMap dirSockets

/-- the options of the servers and of their locations -/
def srvLocOpts : SrvOpt → List LocOpt | .opt o => [o] | .location _ os => os | _ => []
def dirLocOpts : Directive → List LocOpt | .server _ b => b.flatMap srvLocOpts | _ => []

/-- the text of a `block return` does not end in a percent sign -/
def NoTrailingPercent : LocOpt → Prop | .blockReturn _ (some s) => s.getLast? ≠ some c%'%' | _ => True

/-- the media types and their extensions have less than 128 bytes -/
def TypesFit : Directive → Prop | .types ts => ∀ t ∈ ts, t.1.length < 128 ∧ ∀ x ∈ t.2, x.length < 128 | _ => True

/-- IPv4 and IPv6 addresses -/
def UsableAddr (a : AddrInfo) : Prop := a.addr.length ≤ 128 ∧ (a.family = 2 ∨ a.family = 10)
def Usable (env : PEnv) : Prop := ∀ h p ais, env.resolve h p = some ais → ∀ a ∈ ais, UsableAddr a

/-- getaddrinfo(3) does not succeed without an address -/
def Resolves (env : PEnv) : Prop := ∀ h p, env.resolve h p ≠ some []

end Gmid.Spec

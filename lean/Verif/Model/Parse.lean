import Verif.Model.Basic
import Verif.Model.Compat
import Verif.Model.Mime
import Verif.Model.Server

/-!
# Model of parse.y: macros, keywords, fastcgi endpoints, checks, listen addresses

Strings are C strings without their terminator.  yyerror only counts errors (file->errors); parse_conf fails when there are any.
-/

set_option autoImplicit false

namespace Gmid

/-! ## Macros -/

/-- struct sym (parse.y:79-85); `used` is only written -/
structure Sym where
  name : Bytes
  val : Bytes
  persist : Bool
  deriving Repr, DecidableEq

/-- parse.y:1159-1187, symset, on the list symhead -/
def symset (syms : List Sym) (name val : Bytes) (persist : Bool) : List Sym :=
  match syms.find? (fun s => decide (s.name = name)) with
  | some s =>
    if s.persist then syms
    else syms.erase s ++ [{ name := name, val := val, persist := persist }]
  | none => syms ++ [{ name := name, val := val, persist := persist }]

/-- parse.y:1205-1217, symget -/
def symget (syms : List Sym) (name : Bytes) : Option Bytes :=
  (syms.find? (fun s => decide (s.name = name))).map (·.val)

/-- strrchr(s, '='): what is before and after the last one -/
def splitLastEq : Bytes → Option (Bytes × Bytes)
  | [] => none
  | c :: r =>
    match splitLastEq r with
    | some (a, b) => some (c :: a, b)
    | none => if c = c%'=' then some ([], r) else none

/-- parse.y:1190-1203, cmdline_symset; `none` when it returns -1 -/
def cmdlineSymset (syms : List Sym) (s : Bytes) : Option (List Sym) :=
  (splitLastEq s).map fun (n, v) => symset syms n v true

/-- parse.y:1143-1152, in parse_conf: macros not from the command line are forgotten -/
def symsAfterParse (syms : List Sym) : List Sym := syms.filter (·.persist)

/-! ## Keywords -/

/-- parse.y:708-755, the table of keywords, with the names of their tokens -/
def keywords : List (Bytes × Bytes) :=
  [(b%"access", b%"ACCESS"), (b%"alias", b%"ALIAS"), (b%"auto", b%"AUTO"), (b%"block", b%"BLOCK"), (b%"ca", b%"CA"),
   (b%"cert", b%"CERT"), (b%"cgi", b%"CGI"), (b%"chroot", b%"CHROOT"), (b%"client", b%"CLIENT"), (b%"default", b%"DEFAULT"),
   (b%"facility", b%"FACILITY"), (b%"fastcgi", b%"FASTCGI"), (b%"for-host", b%"FOR_HOST"), (b%"include", b%"INCLUDE"), (b%"index", b%"INDEX"),
   (b%"ipv6", b%"IPV6"), (b%"key", b%"KEY"), (b%"lang", b%"LANG"), (b%"listen", b%"LISTEN"), (b%"location", b%"LOCATION"),
   (b%"log", b%"LOG"), (b%"ocsp", b%"OCSP"), (b%"off", b%"OFF"), (b%"on", b%"ON"), (b%"param", b%"PARAM"),
   (b%"port", b%"PORT"), (b%"prefork", b%"PREFORK"), (b%"proto", b%"PROTO"), (b%"protocols", b%"PROTOCOLS"), (b%"proxy", b%"PROXY"),
   (b%"proxy-v1", b%"PROXYV1"), (b%"relay-to", b%"RELAY_TO"), (b%"require", b%"REQUIRE"), (b%"return", b%"RETURN"), (b%"root", b%"ROOT"),
   (b%"server", b%"SERVER"), (b%"sni", b%"SNI"), (b%"socket", b%"SOCKET"), (b%"strip", b%"STRIP"), (b%"style", b%"STYLE"),
   (b%"syslog", b%"SYSLOG"), (b%"tcp", b%"TCP"), (b%"to-ext", b%"TOEXT"), (b%"type", b%"TYPE"), (b%"types", b%"TYPES"),
   (b%"use-tls", b%"USE_TLS"), (b%"user", b%"USER"), (b%"verifyname", b%"VERIFYNAME")]

/-- parse.y:790-802, lookup (and kw_cmp, 784-788): the token of a keyword, or `none` for STRING; bsearch(3) is that of Model/Mime.lean -/
def lookupKw (s : Bytes) : Option Bytes :=
  (bsearchExt s (keywords.map fun k => { mime := k.2, ext := k.1 })).map (·.mime)

/-! ## Numbers -/

/-- a long long stored in an int (two's complement, as every compiler does) -/
def llToInt (v : Int) : Int := (v + 2147483648) % 4294967296 - 2147483648

/-- parse.y:1035-1046, in yylex: the value of a number token, from its text; `none`: an error is reported.  YYSTYPE's number is an int
(parse.y:108-114). -/
def numToken (s : Bytes) : Option Int :=
  match strtonum s (-9223372036854775808) 9223372036854775807 with
  | (v, none) => some (llToInt v)
  | (_, some _) => none

/-- parse.y:1227-1233, check_block_code: whether it is accepted -/
def checkBlockCode (n : Int) : Bool := !(n < 10 || n ≥ 70 || (n ≥ 20 && n ≤ 29))

/-- parse.y:1258-1264, check_strip_no -/
def checkStripNo (n : Int) : Bool := !(n ≤ 0)

/-- parse.y:1266-1272, check_prefork_num; PROC_MAX_INSTANCES is 16 -/
def checkPreforkNum (n : Int) : Bool := !(n ≤ 0 || n ≥ 16)

/-! ## FastCGI endpoints -/

/-- struct fcgi (gmid.h:138-143): an empty port is none -/
structure FcgiEp where
  path : Bytes
  port : Bytes
  deriving Repr, DecidableEq

/-- the loop of fastcgi_conf, from index `i`: `.ub` for strcmp(f->port, NULL) -/
def fcgiFind (path : Bytes) (port : Option Bytes) : Nat → List FcgiEp → Res (Option Nat)
  | _, [] => .ok none
  | i, f :: r =>
    if f.path = path then
      match port with
      | none => if f.port = [] then .ok (some i) else .ub
      | some p => if f.port = p then .ok (some i) else fcgiFind path port (i + 1) r
    else fcgiFind path port (i + 1) r

/-- parse.y:1288-1312, fastcgi_conf: the endpoints, the index and the number of errors reported.  PATH_MAX is 4096. -/
def fastcgiConf (fs : List FcgiEp) (path : Bytes) (port : Option Bytes) : Res (List FcgiEp × Nat × Nat) :=
  match fcgiFind path port 0 fs with
  | .ub => .ub
  | .err => .err
  | .ok (some i) => .ok (fs, i, 0)
  | .ok none =>
    let e1 := if path.length ≥ 4096 then 1 else 0
    let e2 := if (port.getD []).length ≥ 32 then 1 else 0
    .ok (fs ++ [{ path := path.take 4095, port := (port.getD []).take 31 }], fs.length, e1 + e2)

/-! ## Listen addresses -/

/-- struct addrinfo, a result of getaddrinfo(3) -/
structure AddrInfo where
  flags : Int
  family : Int
  socktype : Int
  protocol : Int
  addr : Bytes
  deriving Repr, DecidableEq

/-- struct address (gmid.h:119-136) but for `pp` and `port`, which are functions of the rest -/
structure LAddr where
  ai : AddrInfo
  proxy : Bool
  deriving Repr, DecidableEq

/-- parse.y:1348-1401, add_to_addr_queue: the queue and the number of errors; `.err` is fatal.  AF_INET is 2, AF_INET6 10;
sizeof(struct sockaddr_storage) is 128. -/
def addToAddrQueue (q : List LAddr) (ai : AddrInfo) (proxy : Bool) : Res (List LAddr × Nat) :=
  if ai.addr.length > 128 then .err
  else
    match q.find? (fun a => decide (a.ai = ai)) with
    | some a => .ok (q, if a.proxy ≠ proxy then 1 else 0)
    | none => if ai.family = 2 ∨ ai.family = 10 then .ok ({ ai := ai, proxy := proxy } :: q, 0) else .err

/-- parse.y:1403-1434, listen_on: the results of getaddrinfo (none when it fails, an error) are added to the queue of
the host and to that of the configuration.  getnameinfo succeeds. -/
def listenOn (hostq confq : List LAddr) (proxy : Bool) : List AddrInfo → Res (List LAddr × List LAddr × Nat)
  | [] => .ok (hostq, confq, 0)
  | ai :: r =>
    match addToAddrQueue hostq ai proxy with
    | .ok (hq, e1) =>
      match addToAddrQueue confq ai proxy with
      | .ok (cq, e2) =>
        match listenOn hq cq proxy r with
        | .ok (hq', cq', e) => .ok (hq', cq', e1 + e2 + e)
        | .err => .err
        | .ub => .ub
      | .err => .err
      | .ub => .ub
    | .err => .err
    | .ub => .ub

end Gmid

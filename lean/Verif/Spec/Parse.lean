import Verif.Model.Parse

/-!
# Specification: pieces of the configuration language
-/

set_option autoImplicit false

namespace Gmid.Spec

/-- the value a macro should have, from the definitions on the command line and those in the file so far -/
def macroValue (cmdline file : List (Bytes × Bytes)) (name : Bytes) : Option Bytes :=
  match cmdline.find? (fun d => decide (d.1 = name)) with
  | some d => some d.2
  | none => (file.reverse.find? (fun d => decide (d.1 = name))).map (·.2)

/-- the command line, then the file -/
def defineAll (cmdline file : List (Bytes × Bytes)) : List Sym :=
  file.foldl (fun s d => symset s d.1 d.2 false) (cmdline.foldl (fun s d => symset s d.1 d.2 true) [])

/-- the endpoint a fastcgi directive denotes -/
def endpoint (d : Bytes × Option Bytes) : FcgiEp := { path := d.1, port := d.2.getD [] }

/-- a sequence of fastcgi directives: the endpoints, the index given to each directive, the number of errors -/
def declareFcgi : List FcgiEp → List (Bytes × Option Bytes) → Res (List FcgiEp × List Nat × Nat)
  | fs, [] => .ok (fs, [], 0)
  | fs, d :: r =>
    match fastcgiConf fs d.1 d.2 with
    | .ok (fs', i, e) =>
      match declareFcgi fs' r with
      | .ok (fs'', is, e') => .ok (fs'', i :: is, e + e')
      | .err => .err
      | .ub => .ub
    | .err => .err
    | .ub => .ub

/-- a format for `block return`: text without %, and %% %p %q %P %N -/
inductive BlockFmt : Bytes → Prop where
  | nil : BlockFmt []
  | text (c : UInt8) (r : Bytes) : c ≠ c%'%' → BlockFmt r → BlockFmt (c :: r)
  | spec (c : UInt8) (r : Bytes) : c ∈ b%"%pqPN" → BlockFmt r → BlockFmt (c%'%' :: c :: r)

/-- a `listen on` directive: the addresses it resolves to and whether it has proxy-v1 -/
structure ListenDir where
  ais : List AddrInfo
  proxy : Bool
  deriving Repr, DecidableEq

/-- a sequence of servers, each a sequence of listen directives; the queue of the configuration, and the number of errors -/
def listenHost (hq cq : List LAddr) : List ListenDir → Res (List LAddr × List LAddr × Nat)
  | [] => .ok (hq, cq, 0)
  | d :: r =>
    match listenOn hq cq d.proxy d.ais with
    | .ok (hq', cq', e) =>
      match listenHost hq' cq' r with
      | .ok (a, b, e') => .ok (a, b, e + e')
      | .err => .err
      | .ub => .ub
    | .err => .err
    | .ub => .ub

def listenAll (cq : List LAddr) : List (List ListenDir) → Res (List LAddr × Nat)
  | [] => .ok (cq, 0)
  | h :: r =>
    match listenHost [] cq h with
    | .ok (_, cq', e) =>
      match listenAll cq' r with
      | .ok (b, e') => .ok (b, e + e')
      | .err => .err
      | .ub => .ub
    | .err => .err
    | .ub => .ub

/-- the addresses requested, each with its proxy-v1 setting -/
def requested (ds : List ListenDir) : List (AddrInfo × Bool) := ds.flatMap fun d => d.ais.map fun a => (a, d.proxy)

/-- the tokens of the grammar that stand for words (the %token declarations, parse.y:124-138) -/
def wordTokens : List Bytes :=
  [b%"ACCESS", b%"ALIAS", b%"AUTO", b%"BLOCK", b%"CA", b%"CERT", b%"CGI", b%"CHROOT", b%"CLIENT", b%"DEFAULT", b%"FACILITY", b%"FASTCGI",
   b%"FOR_HOST", b%"INCLUDE", b%"INDEX", b%"IPV6", b%"KEY", b%"LANG", b%"LISTEN", b%"LOCATION", b%"LOG", b%"OCSP", b%"OFF", b%"ON",
   b%"PARAM", b%"PORT", b%"PREFORK", b%"PROTO", b%"PROTOCOLS", b%"PROXY", b%"PROXYV1", b%"RELAY_TO", b%"REQUIRE", b%"RETURN", b%"ROOT",
   b%"SERVER", b%"SNI", b%"SOCKET", b%"STRIP", b%"STYLE", b%"SYSLOG", b%"TCP", b%"TOEXT", b%"TYPE", b%"TYPES", b%"USE_TLS", b%"USER",
   b%"VERIFYNAME"]

/-- the letters and digits of a name, in lower case -/
def plainName (s : Bytes) : Bytes :=
  (s.filter fun c => decide (c ≠ c%'-' ∧ c ≠ c%'_')).map fun c => if c%'A' ≤ c ∧ c ≤ c%'Z' then c + 32 else c

end Gmid.Spec

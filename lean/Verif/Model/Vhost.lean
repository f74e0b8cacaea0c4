import Verif.Model.Basic

/-!
# Model of the configuration structures and of the vhost_* lookups of server.c

fnmatch(3) is an external function: a parameter `fnm pattern string`, true when fnmatch returns 0
with flags 0.  Lists model the TAILQs.
-/

set_option autoImplicit false

namespace Gmid

/-- `struct location`, gmid.h:184-206.  Strings are C strings; `reqca` is the X509_STORE, named by
a number, or NULL.  Simplification: the fields used only to build the FastCGI parameters are
omitted except `dir`. -/
structure Location where
  pat : Bytes := []
  lang : Bytes := []
  defaultMime : Bytes := []
  index : Bytes := []
  autoIndex : Int := 0
  blockCode : Int := 0
  blockFmt : Bytes := []
  strip : Int := 0
  reqca : Option Nat := none
  disableLog : Bool := false
  fcgi : Int := -1
  nofcgi : Bool := false
  dir : Bytes := []
  dirfd : Int := -1
  deriving Repr, DecidableEq

/-- `struct proxy`, gmid.h:157-181.  Simplification: certificates and TLS settings other than
`notls` are omitted. -/
structure Proxy where
  matchProto : Bytes := []
  matchHost : Bytes := []
  matchPort : Bytes := []
  host : Bytes := []
  port : Bytes := []
  notls : Bool := false
  reqca : Option Nat := none
  proxy : Bool := false
  deriving Repr, DecidableEq

/-- `struct vhost`, gmid.h:209-239.  `dflt` is the first element of the location list (always
there, pattern "*"), `locs` the rest. -/
structure Vhost where
  domain : Bytes
  aliases : List Bytes := []
  dflt : Location := {}
  locs : List Location := []
  proxies : List Proxy := []
  deriving Repr, DecidableEq

section
variable (fnm : Bytes → Bytes → Bool)

/-- server.c:104-110, matches: one leading slash of the path is skipped. -/
def pmatch (pattern path : Bytes) : Bool :=
  match path with
  | 47 :: r => fnm pattern r
  | _ => fnm pattern path

/-- server.c:112-125, match_host: the alias loop. -/
def matchAliases (domain : Bytes) : List Bytes → Bool
  | [] => false
  | a :: r => if pmatch fnm a domain then true else matchAliases domain r

/-- server.c:112-125, match_host -/
def matchHost (v : Vhost) (domain : Bytes) : Bool :=
  if pmatch fnm v.domain domain then true else matchAliases fnm domain v.aliases

/-- server.c:420-422, the loop over the hosts in handle_handshake -/
def findHost (domain : Bytes) : List Vhost → Option Vhost
  | [] => none
  | h :: r => if matchHost fnm h domain then some h else findHost domain r

/-- server.c:135-141 -/
def langLoop (path : Bytes) : List Location → Option Bytes
  | [] => none
  | l :: r =>
    if l.lang ≠ [] then (if pmatch fnm l.pat path then some l.lang else langLoop path r)
    else langLoop path r

/-- server.c:127-147, vhost_lang; `none` is NULL -/
def vhostLang (v : Option Vhost) (path : Option Bytes) : Option Bytes :=
  match v, path with
  | some v, some path =>
    match langLoop fnm path v.locs with
    | some l => some l
    | none => if v.dflt.lang = [] then none else some v.dflt.lang
  | _, _ => none

/-- server.c:158-164 -/
def mimeLoop (path : Bytes) : List Location → Option Bytes
  | [] => none
  | l :: r =>
    if l.defaultMime ≠ [] then (if pmatch fnm l.pat path then some l.defaultMime else mimeLoop path r)
    else mimeLoop path r

/-- server.c:149-170, vhost_default_mime -/
def vhostDefaultMime (v : Option Vhost) (path : Option Bytes) : Bytes :=
  match v, path with
  | some v, some path =>
    match mimeLoop fnm path v.locs with
    | some l => l
    | none => if v.dflt.defaultMime ≠ [] then v.dflt.defaultMime else b%"application/octet-stream"
  | _, _ => b%"application/octet-stream"

/-- server.c:181-187 -/
def indexLoop (path : Bytes) : List Location → Option Bytes
  | [] => none
  | l :: r =>
    if l.index ≠ [] then (if pmatch fnm l.pat path then some l.index else indexLoop path r)
    else indexLoop path r

/-- server.c:172-193, vhost_index -/
def vhostIndex (v : Option Vhost) (path : Option Bytes) : Bytes :=
  match v, path with
  | some v, some path =>
    match indexLoop fnm path v.locs with
    | some l => l
    | none => if v.dflt.index ≠ [] then v.dflt.index else b%"index.gmi"
  | _, _ => b%"index.gmi"

/-- server.c:203-209 -/
def autoIndexLoop (path : Bytes) : List Location → Option Bool
  | [] => none
  | l :: r =>
    if l.autoIndex ≠ 0 then
      (if pmatch fnm l.pat path then some (decide (l.autoIndex = 1)) else autoIndexLoop path r)
    else autoIndexLoop path r

/-- server.c:195-213, vhost_auto_index -/
def vhostAutoIndex (v : Option Vhost) (path : Option Bytes) : Bool :=
  match v, path with
  | some v, some path =>
    match autoIndexLoop fnm path v.locs with
    | some b => b
    | none => decide (v.dflt.autoIndex = 1)
  | _, _ => false

/-- server.c:223-232 -/
def blockLoop (path : Bytes) : List Location → Option (Int × Bytes)
  | [] => none
  | l :: r =>
    if l.blockCode ≠ 0 then
      (if pmatch fnm l.pat path then some (l.blockCode, l.blockFmt) else blockLoop path r)
    else blockLoop path r

/-- server.c:215-238, vhost_block_return; `none` is the return value 0 -/
def vhostBlockReturn (v : Option Vhost) (path : Option Bytes) : Option (Int × Bytes) :=
  match v, path with
  | some v, some path =>
    match blockLoop fnm path v.locs with
    | some r => some r
    | none => if v.dflt.blockCode ≠ 0 then some (v.dflt.blockCode, v.dflt.blockFmt) else none
  | _, _ => none

/-- server.c:248-255; the outer option: whether the loop returned, the inner one: the pointer -/
def fcgiLoop (path : Bytes) : List Location → Option (Option Location)
  | [] => none
  | l :: r =>
    if l.fcgi ≠ -1 && pmatch fnm l.pat path then some (some l)
    else if l.nofcgi && pmatch fnm l.pat path then some none
    else fcgiLoop path r

/-- server.c:240-259, vhost_fastcgi -/
def vhostFastcgi (v : Option Vhost) (path : Option Bytes) : Option Location :=
  match v, path with
  | some v, some path =>
    match fcgiLoop fnm path v.locs with
    | some r => r
    | none => if v.dflt.fcgi = -1 then none else some v.dflt
  | _, _ => none

/-- server.c:270-278; `l` is the number of the current location -/
def dirfdLoop (path : Bytes) : Nat → List Location → Option (Int × Nat)
  | _, [] => none
  | n, l :: r =>
    if l.dirfd ≠ -1 then
      (if pmatch fnm l.pat path then some (l.dirfd, n + 1) else dirfdLoop path (n + 1) r)
    else dirfdLoop path (n + 1) r

/-- server.c:261-283, vhost_dirfd: (descriptor, *retloc) -/
def vhostDirfd (v : Option Vhost) (path : Option Bytes) : Int × Nat :=
  match v, path with
  | some v, some path =>
    match dirfdLoop fnm path 0 v.locs with
    | some r => r
    | none => (v.dflt.dirfd, 0)
  | _, _ => (-1, 0)

/-- server.c:293-299 -/
def stripLoop (path : Bytes) : List Location → Option Int
  | [] => none
  | l :: r =>
    if l.strip ≠ 0 then (if pmatch fnm l.pat path then some l.strip else stripLoop path r)
    else stripLoop path r

/-- server.c:285-303, vhost_strip -/
def vhostStrip (v : Option Vhost) (path : Option Bytes) : Int :=
  match v, path with
  | some v, some path =>
    match stripLoop fnm path v.locs with
    | some r => r
    | none => v.dflt.strip
  | _, _ => 0

/-- server.c:313-319 -/
def caLoop (path : Bytes) : List Location → Option Nat
  | [] => none
  | l :: r =>
    match l.reqca with
    | some s => if pmatch fnm l.pat path then some s else caLoop path r
    | none => caLoop path r

/-- server.c:305-323, vhost_require_ca -/
def vhostRequireCa (v : Option Vhost) (path : Option Bytes) : Option Nat :=
  match v, path with
  | some v, some path =>
    match caLoop fnm path v.locs with
    | some s => some s
    | none => v.dflt.reqca
  | _, _ => none

/-- server.c:333-337 -/
def logLoop (path : Bytes) : List Location → Bool
  | [] => false
  | l :: r => if l.disableLog && pmatch fnm l.pat path then true else logLoop path r

/-- server.c:325-341, vhost_disable_log -/
def vhostDisableLog (v : Option Vhost) (path : Option Bytes) : Bool :=
  match v, path with
  | some v, some path => if logLoop fnm path v.locs then true else v.dflt.disableLog
  | _, _ => false

/-- server.c:509-521: a rule's pattern, or the default when it is the empty string -/
def patOr (p dflt : Bytes) : Bytes := if p = [] then dflt else p

/-- server.c:501-524, matched_proxy: schema, SNI and port text of the request against the rules in
order. -/
def matchedProxy (schema domain port : Bytes) : List Proxy → Option Proxy
  | [] => none
  | p :: r =>
    if pmatch fnm (patOr p.matchProto b%"gemini") schema &&
        pmatch fnm (patOr p.matchHost b%"*") domain &&
        pmatch fnm (patOr p.matchPort b%"*") port then some p
    else matchedProxy schema domain port r

end

end Gmid

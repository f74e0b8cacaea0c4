import Verif.Spec.Deploy
import Verif.Spec.Fcgi
import Verif.Model.DeployCgi

/-!
# The FastCGI options of the file, as rules for requests
-/

set_option autoImplicit false

namespace Gmid.Spec

/-- the process that works with `env` holds `st`: it is what it received of the configuration `c` -/
def HasWorker (files : Bytes → Option Bytes) (loadCa : Bytes → Option Nat) (openDir : Bytes → Option Int) (c : CConf) (env : Env) (st : Worker) : Prop :=
  ∃ (privsep : Bool) (sup : LAddr → Bool) (ms : List (Proc × CMsg CLoc (Bytes × Bytes) CProxy LAddr FcgiEp))
      (hash : Bytes → Option Bytes) (loadKey : Bytes → Option Unit) (st0 : Worker),
    mainConfigure files sup (c.toP privsep) = some ms ∧
    recvAll files loadCa hash loadKey .server st0 (forProc .server ms) = .ok st ∧ ConfigureDone openDir st env

/-- the options say something about FastCGI: `fastcgi off`, or an application -/
def SaysCgi (os : List LocOpt) : Prop := .fcgiOff ∈ os ∨ ∃ d, lastOf fcgiOf os = some (some d)

/-- the location of the file is for the path -/
def LocFor (fnm : Bytes → Bytes → Bool) (path : Bytes) (y : Bytes × List LocOpt) : Prop :=
  fnm (noSlash y.1) (if path.head? = some c%'/' then path.tail else path) = true

/-- the options of the server that are in force for FastCGI and the path: those of the first location for it that says something about FastCGI,
else those of the server; and `d` is the application they name -/
def CgiBlock (fnm : Bytes → Bytes → Bool) (body : List SrvOpt) (path : Bytes) (os : List LocOpt) (d : Bytes × Option Bytes) : Prop :=
  lastOf fcgiOf os = some (some d) ∧
  ((∃ before p after, body.filterMap locationOf = before ++ (p, os) :: after ∧ LocFor fnm path (p, os) ∧ ∀ y ∈ before, ¬ (SaysCgi y.2 ∧ LocFor fnm path y)) ∨
   ((∀ y ∈ body.filterMap locationOf, ¬ (SaysCgi y.2 ∧ LocFor fnm path y)) ∧ os = body.filterMap optOf))

/-- no application is in force for the path: the first location for it that says something about FastCGI, or else the server, names none -/
def NoCgi (fnm : Bytes → Bytes → Bool) (body : List SrvOpt) (path : Bytes) : Prop :=
  (∃ before y after, body.filterMap locationOf = before ++ y :: after ∧ SaysCgi y.2 ∧ LocFor fnm path y ∧ (∀ z ∈ before, ¬ (SaysCgi z.2 ∧ LocFor fnm path z)) ∧
    ∀ d, lastOf fcgiOf y.2 ≠ some (some d)) ∨
  ((∀ y ∈ body.filterMap locationOf, ¬ (SaysCgi y.2 ∧ LocFor fnm path y)) ∧ ∀ d, lastOf fcgiOf (body.filterMap optOf) ≠ some (some d))

/-- the script name the options give, without slashes at its end -/
def ScriptIs (os : List LocOpt) (s : Bytes) : Prop :=
  ∃ v slashes, v = s ++ slashes ∧ (∀ x ∈ slashes, x = c%'/') ∧ s.getLast? ≠ some c%'/' ∧
    (((os.filterMap paramOf).find? fun p => decide (p.1 = b%"SCRIPT_NAME")).map (·.2)).getD [] = v

/-- what an application is told of a request: `os` are the options in force, `srv` those of the server -/
structure AppGets (os srv : List LocOpt) (i : Iri) (rhost software : Bytes) (cert : Option FcgiCert) (ps : List (Bytes × Bytes)) : Prop where
  /-- the resource -/
  server : (b%"SERVER_NAME", i.host) ∈ ps ∧ (b%"SERVER_PORT", if i.port = [] then b%"1965" else i.port) ∈ ps
  path : (b%"GEMINI_URL_PATH", i.path) ∈ ps
  query : (b%"QUERY_STRING", i.query) ∈ ps
  search : ∃ t, QueryText i.query t ∧ ((b%"GEMINI_SEARCH_STRING", t) ∈ ps ∨ i.query = [] ∨ c%'=' ∈ i.query)
  /-- the protocol -/
  kind : (b%"GATEWAY_INTERFACE", b%"CGI/1.1") ∈ ps ∧ (b%"REQUEST_METHOD", b%"GET") ∈ ps ∧ (b%"SERVER_PROTOCOL", b%"GEMINI") ∈ ps ∧
    (b%"SERVER_SOFTWARE", software) ∈ ps
  /-- the client -/
  client : (b%"REMOTE_ADDR", rhost) ∈ ps ∧ (b%"REMOTE_HOST", rhost) ∈ ps
  /-- its certificate -/
  shown : ∀ t, cert = some t → (b%"AUTH_TYPE", b%"CERTIFICATE") ∈ ps ∧ (b%"REMOTE_USER", t.subject) ∈ ps ∧ (b%"TLS_CLIENT_ISSUER", t.issuer) ∈ ps ∧
    (b%"TLS_CLIENT_HASH", t.hash) ∈ ps ∧ (b%"TLS_CLIENT_NOT_BEFORE", t.notBefore) ∈ ps ∧ (b%"TLS_CLIENT_NOT_AFTER", t.notAfter) ∈ ps
  hidden : cert = none → (b%"AUTH_TYPE", []) ∈ ps ∧ ∀ v, (b%"REMOTE_USER", v) ∈ ps → (b%"REMOTE_USER", v) ∈ os.filterMap paramOf
  /-- the parameters of the file, in their order, but for the script name -/
  own : ∃ a b, ps = a ++ (os.filterMap paramOf).filter (fun p => decide (p.1 ≠ b%"SCRIPT_NAME")) ++ b
  /-- the script name, what is left of the path after it, and what that is below the root: without `fastcgi strip`, when the script name is a leading part of the path -/
  script : ∀ s rest, (lastOf fcgiStripOf os).getD 0 = 0 → ScriptIs os s → c%'/' :: i.path = s ++ rest → (rest = [] ∨ rest.head? = some c%'/') →
    (b%"SCRIPT_NAME", s) ∈ ps ∧ (b%"PATH_INFO", rest) ∈ ps ∧ (∀ v, (b%"SCRIPT_NAME", v) ∈ ps → v = s) ∧
    ∀ root, (lastOf rootOf os = some root ∨ (lastOf rootOf os = none ∧ lastOf rootOf srv = some root)) → root ≠ [] → root.getLast? ≠ some c%'/' →
      root.length + i.path.length < 4095 → (b%"PATH_TRANSLATED", root ++ c%'/' :: rest.dropWhile (· == c%'/')) ∈ ps

end Gmid.Spec

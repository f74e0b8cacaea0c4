import Verif.Model.Deploy
import Verif.Spec.Actions
import Verif.Spec.Config
import Verif.Spec.Server
import Verif.Spec.Text

/-!
# A running server and the text of its configuration file
-/

set_option autoImplicit false

namespace Gmid.Spec

/-- the client CA in a file, as the number of its store -/
def caIn (files : Bytes → Option Bytes) (loadCa : Bytes → Option Nat) (path : Bytes) : Nat := ((files path).bind loadCa).getD 0

/-- the descriptor of a directory -/
def dirIn (openDir : Bytes → Option Int) (path : Bytes) : Int := (openDir path).getD (-1)

/-- gmid runs with the configuration `c` after reading the directives: it was started with them, or reloaded them -/
def RunsWith (penv : PEnv) (ds : List Directive) (c : CConf) : Prop :=
  (∃ home, mainStart penv home ds = some c) ∨ ∃ old, mainReload penv old ds = some c

/-- A server process whose configuration comes from the file `txt`: the file says `ds`, gmid runs with it and has sent the
configuration, and the process, whatever it held before, has received it and is ready. -/
structure Serving (penv : PEnv) (files : Bytes → Option Bytes) (loadCa : Bytes → Option Nat) (openDir : Bytes → Option Int)
    (txt : Bytes) (ds : List Directive) (c : CConf) (env : Env) : Prop where
  resolves : Resolves penv
  says : Says txt ds
  runs : RunsWith penv ds c
  sent : ∃ (privsep : Bool) (sup : LAddr → Bool) (ms : List (Proc × CMsg CLoc (Bytes × Bytes) CProxy LAddr FcgiEp))
      (hash : Bytes → Option Bytes) (loadKey : Bytes → Option Unit) (st0 st : Worker),
    mainConfigure files sup (c.toP privsep) = some ms ∧
    recvAll files loadCa hash loadKey .server st0 (forProc .server ms) = .ok st ∧ ConfigureDone openDir st env

/-- the server of the file has that name, or an alias (a slash before it is left out) -/
def NamedBy (fnm : Bytes → Bytes → Bool) (name : Bytes) (x : Bytes × List SrvOpt) : Prop :=
  ∃ p, (p = x.1 ∨ p ∈ x.2.filterMap aliasOf) ∧ fnm p (if name.head? = some c%'/' then name.tail else name) = true

/-- the block of the server that is to serve the name: the last one of the file with that name or alias -/
def LastServer (fnm : Bytes → Bytes → Bool) (ds : List Directive) (name : Bytes) (x : Bytes × List SrvOpt) : Prop :=
  ∃ before after, ds.filterMap serverOf = before ++ x :: after ∧ NamedBy fnm name x ∧ ∀ y ∈ after, ¬ NamedBy fnm name y

/-- the host that a block of the file describes -/
def hostIn (penv : PEnv) (files : Bytes → Option Bytes) (loadCa : Bytes → Option Nat) (openDir : Bytes → Option Int) (c : CConf)
    (x : Bytes × List SrvOpt) : Vhost := (hostValue penv c.fcgi x.1 x.2).toVhost (caIn files loadCa) (dirIn openDir)

/-- a request that is well formed: `req` is its line, `rest` what the client sent after it -/
structure Asks (env : Env) (req rest : Bytes) (i : Iri) (decoded : Bytes) : Prop where
  line : ∀ a b, req ++ b%"\r" = a ++ b%"\r\n" ++ b → False
  room : (req ++ b%"\r\n" ++ rest).length ≤ 1026
  nonul : (0 : UInt8) ∉ req
  parses : parseIri env.isAddr req = .ok i
  decodes : env.puny i.host = some decoded

/-- the number of components to strip: that of the first matching location with a `strip`, else that of the server -/
def StripIs (fnm : Bytes → Bytes → Bool) (v : Vhost) (path : Bytes) (n : Int) : Prop :=
  (∃ l, FirstSet fnm (·.strip ≠ 0) v.locs path l ∧ l.strip = n) ∨ (NoneSet fnm (·.strip ≠ 0) v.locs path ∧ v.dflt.strip = n)

/-- the directory in force for the path: that of the first matching location with a `root`, else that of the server -/
def DirIs (fnm : Bytes → Bytes → Bool) (v : Vhost) (path dir : Bytes) : Prop :=
  (∃ l, FirstSet fnm (·.dir ≠ []) v.locs path l ∧ l.dir = dir) ∨ (NoneSet fnm (·.dir ≠ []) v.locs path ∧ v.dflt.dir = dir)

/-- the language added to the type: that in force for the path, when the type is text/gemini -/
def LangSuffix (fnm : Bytes → Bytes → Bool) (v : Vhost) (path m suffix : Bytes) : Prop :=
  (m = b%"text/gemini" ∧ ∃ l, FirstSet fnm (·.lang ≠ []) v.locs path l ∧ suffix = b%";lang=" ++ l.lang) ∨
  (m = b%"text/gemini" ∧ NoneSet fnm (·.lang ≠ []) v.locs path ∧ v.dflt.lang ≠ [] ∧ suffix = b%";lang=" ++ v.dflt.lang) ∨
  ((m ≠ b%"text/gemini" ∨ (NoneSet fnm (·.lang ≠ []) v.locs path ∧ v.dflt.lang = [])) ∧ suffix = [])

/-- the extension: what follows the last dot of the last component, which does not begin with it -/
def Extension (path ext : Bytes) : Prop :=
  ∃ pre, path = pre ++ c%'.' :: ext ∧ pre ≠ [] ∧ c%'.' ∉ ext ∧ c%'/' ∉ ext

/-- the types of the file, the default ones if it has none -/
def typesIn (ds : List Directive) : List Etm := if ds.flatMap typesOf = [] then defaultMimes else ds.flatMap typesOf

/-- the type without a mapping: that of the first matching location with a `default type`, else that of the server, else
application/octet-stream -/
def DefaultTypeIs (fnm : Bytes → Bytes → Bool) (v : Vhost) (name m : Bytes) : Prop :=
  (∃ l, FirstSet fnm (·.defaultMime ≠ []) v.locs name l ∧ m = l.defaultMime) ∨
  (NoneSet fnm (·.defaultMime ≠ []) v.locs name ∧ m = if v.dflt.defaultMime = [] then b%"application/octet-stream" else v.dflt.defaultMime)

/-- the type of a file -/
def TypeIs (fnm : Bytes → Bytes → Bool) (ds : List Directive) (v : Vhost) (name m : Bytes) : Prop :=
  (∃ ext e, Extension name ext ∧ e ∈ typesIn ds ∧ e.ext = ext ∧ m = e.mime) ∨
  (∃ ext, Extension name ext ∧ (∀ e ∈ typesIn ds, e.ext ≠ ext) ∧ (ext = b%"gmi" ∨ ext = b%"gemini") ∧ m = b%"text/gemini") ∨
  ((∀ ext, Extension name ext → (∀ e ∈ typesIn ds, e.ext ≠ ext) ∧ ext ≠ b%"gmi" ∧ ext ≠ b%"gemini") ∧ DefaultTypeIs fnm v name m)

end Gmid.Spec

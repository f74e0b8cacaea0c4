import Verif.Spec.Deploy
import Verif.Spec.Names

/-!
# A directory, or nothing, at the end of the URL
-/

set_option autoImplicit false

namespace Gmid.Spec

/-- the request is one for what is in a directory: the server is the one that is meant, and no relay, certificate, block or FastCGI rule applies;
the directory in force for the path is `dir`, and `nm` is looked for in it -/
structure ForFiles (env : Env) (v : Vhost) (name : Bytes) (i : Iri) (decoded dir nm : Bytes) : Prop where
  us : ForUs i name decoded
  relay : NoRelay env.fnm v i.schema name i.port
  cert : CertOk env v i.path
  block : NoBlock env.fnm v i.path
  fcgi : NoFcgi env.fnm v i.path
  some_dir : dir ≠ []
  dir_is : DirIs env.fnm v i.path dir
  name_is : ∃ strip, StripIs env.fnm v i.path strip ∧ NameFor strip i.path nm

/-- the name of the index file in force for the path: that of the first matching location with an `index`, else that of the server, else index.gmi -/
def IndexIs (fnm : Bytes → Bytes → Bool) (v : Vhost) (path idx : Bytes) : Prop :=
  (∃ l, FirstSet fnm (·.index ≠ []) v.locs path l ∧ idx = l.index) ∨
  (NoneSet fnm (·.index ≠ []) v.locs path ∧ idx = if v.dflt.index = [] then b%"index.gmi" else v.dflt.index)

/-- `auto index` as the first matching location that has it sets it, else as the server does, else off -/
def ListingIs (fnm : Bytes → Bytes → Bool) (v : Vhost) (path : Bytes) (on : Bool) : Prop :=
  (∃ l, FirstSet fnm (·.autoIndex ≠ 0) v.locs path l ∧ (on = true ↔ l.autoIndex = 1)) ∨
  (NoneSet fnm (·.autoIndex ≠ 0) v.locs path ∧ (on = true ↔ v.dflt.autoIndex = 1))

/-- there is no index file in the directory: none that can be opened, or it is no regular file -/
def NoIndex (env : Env) (fd : Int) (idx : Bytes) : Prop :=
  env.openat fd idx = none ∨ ∃ fd' k, env.openat fd idx = some fd' ∧ env.fstat fd' = some k ∧ k ≠ .reg

/-- the request ends in a slash, or is for the directory of the server itself -/
def Slashed (path : Bytes) : Prop := path = [] ∨ path.getLast? = some c%'/'

end Gmid.Spec

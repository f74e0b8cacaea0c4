import Verif.Model.Deploy
import Verif.Model.Fcgi

/-!
# The FastCGI side of a request, in a server process

apply_fastcgi and fcgi_req on the struct conf of the process, with the fields that Model/Vhost.lean leaves out.
-/

set_option autoImplicit false

namespace Gmid

/-- struct vhost and struct location in a server process -/
abbrev WkHost := WHost CLoc (Bytes × Bytes) CProxy LAddr Nat
abbrev WkLoc := WLoc CLoc (Bytes × Bytes) Nat

/-- server.c:104-125, match_host (as Model/Vhost.lean), and 420-422, the loop over the hosts in handle_handshake -/
def workerHost (fnm : Bytes → Bytes → Bool) (name : Bytes) : List WkHost → Option WkHost
  | [] => none
  | h :: r => if pmatch fnm h.domain name || matchAliases fnm name h.aliases then some h else workerHost fnm name r

/-- server.c:248-255, as `fcgiLoop` of Model/Vhost.lean -/
def workerFcgiLoop (fnm : Bytes → Bytes → Bool) (path : Bytes) : List WkLoc → Option (Option WkLoc)
  | [] => none
  | l :: r =>
    if l.loc.fcgi ≠ -1 && pmatch fnm l.loc.pat path then some (some l)
    else if l.loc.nofcgi && pmatch fnm l.loc.pat path then some none
    else workerFcgiLoop fnm path r

/-- server.c:240-259, vhost_fastcgi; the first location is the default one -/
def workerLoc (fnm : Bytes → Bytes → Bool) (h : WkHost) (path : Bytes) : Option WkLoc :=
  match workerFcgiLoop fnm path h.locs.tail with
  | some r => r
  | none => h.locs.head?.bind fun l => if l.loc.fcgi = -1 then none else some l

/-- fcgi.c:399-446: what fcgi_req takes of the client, of the location and of the first location of the host -/
def workerInput (i : Iri) (rhost software : Bytes) (cert : Option FcgiCert) (h : WkHost) (l : WkLoc) : FcgiIn where
  iri := i
  rhost := rhost
  strip := l.loc.fcgiStrip
  params := l.params
  locDir := l.loc.dir
  rootDir := (h.locs.head?.map (·.loc.dir)).getD []
  cert := cert
  software := software

/-- server.c:713-759, apply_fastcgi, on a client of the host `name` for the request `i`: the endpoint it connects to and
the bytes fcgi_req queues for it (fcgi.c:399-506); `none` without an application -/
def workerAsks (fnm : Bytes → Bytes → Bool) (st : Worker) (name : Bytes) (i : Iri) (rhost software : Bytes) (cert : Option FcgiCert) :
    Option (FcgiEp × Bytes) :=
  (workerHost fnm name st.hosts).bind fun h =>
  (workerLoc fnm h i.path).bind fun l =>
  (if l.loc.fcgi < 0 then none else st.fcgi[l.loc.fcgi.toNat]?).map fun f =>
    (f, fcgiStream (fcgiReqParams (workerInput i rhost software cert h l)))

end Gmid

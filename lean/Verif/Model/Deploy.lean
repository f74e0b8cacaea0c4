import Verif.Model.Actions
import Verif.Model.Config
import Verif.Model.Server

/-!
# From the parsed configuration to what a server process works with

The pieces between parse.y and the request handler: what config_send takes of struct conf, and server_configure_done.
-/

set_option autoImplicit false

namespace Gmid

/-- config.c:370-374: the copy of struct location that is sent.  (`params` is a list head, which the receiver initialises,
config.c:661.) -/
def CLoc.wire (l : CLoc) : CLoc := { l with reqcaPath := none, params := [] }

/-- config.c:406-414: the copy of struct proxy that is sent -/
def CProxy.wire (p : CProxy) : CProxy := { p with certPath := none, keyPath := none, reqcaPath := none }

/-- what config.c:326-438 uses of a struct vhost.  cert_path and key_path are set (parse.y:350-353). -/
def CHost.toP (h : CHost) : PHost CLoc (Bytes × Bytes) CProxy LAddr where
  domain := h.domain
  cert := h.certPath.getD []
  key := h.keyPath.getD []
  ocsp := h.ocspPath
  addrs := h.addrs
  locs := h.locs.map fun l => { loc := l.wire, reqca := l.reqcaPath, params := l.params }
  aliases := h.aliases
  proxies := h.proxies.map fun p => { proxy := p.wire, reqca := p.reqcaPath, cert := p.certPath, key := p.keyPath }

/-- what config.c:287-438, config_send, uses of struct conf -/
def CConf.toP (privsep : Bool) (c : CConf) : PConf CLoc (Bytes × Bytes) CProxy LAddr FcgiEp where
  logFormat := c.logFormat
  mime := c.mime.entries.map fun e => (e.mime, e.ext)
  protos := c.protos
  addrs := c.addrs
  fcgi := c.fcgi
  hosts := c.hosts.map CHost.toP
  privsep := privsep

/-- struct conf in a server process, with these structures; an X509_STORE is a number -/
abbrev Worker := WState CLoc (Bytes × Bytes) CProxy LAddr FcgiEp Nat Unit

/-- a loop that ends the process at the first failure -/
def loadAll {α β : Type} (f : α → Option β) : List α → Option (List β)
  | [] => some []
  | a :: r =>
    match f a with
    | none => none
    | some b => (loadAll f r).map fun bs => b :: bs

/-- server.c:1540-1552, in load_vhosts: the directory of a location; -1 without one -/
def locFd (openDir : Bytes → Option Int) (dir : Bytes) : Option Int := if dir = [] then some (-1) else openDir dir

/-- server.c:1536-1555, in load_vhosts: the directory of a location is opened; `none` when that fails (fatal).  A descriptor
is named after the path: `openDir path`.  (conf->conftest is 0.)  The result is the location of Model/Vhost.lean. -/
def loadLoc (openDir : Bytes → Option Int) (l : WLoc CLoc (Bytes × Bytes) Nat) : Option Location :=
  (locFd openDir l.loc.dir).map fun fd =>
    { pat := l.loc.pat, lang := l.loc.lang, defaultMime := l.loc.defaultMime, index := l.loc.index, autoIndex := l.loc.autoIndex,
      blockCode := l.loc.blockCode, blockFmt := l.loc.blockFmt, strip := l.loc.strip, reqca := l.reqca, disableLog := l.loc.disableLog,
      fcgi := l.loc.fcgi, nofcgi := l.loc.nofcgi, dir := l.loc.dir, dirfd := fd }

/-- server.c:1534-1556, in load_vhosts: a host.  The result is the host of Model/Vhost.lean: the first location is the default one. -/
def loadHost (openDir : Bytes → Option Int) (h : WHost CLoc (Bytes × Bytes) CProxy LAddr Nat) : Option Vhost :=
  (loadAll (loadLoc openDir) h.locs).map fun ls =>
    { domain := h.domain, aliases := h.aliases, dflt := ls.headD {}, locs := ls.tail,
      proxies := h.proxies.map fun p =>
        { matchProto := p.proxy.matchProto, matchHost := p.proxy.matchHost, matchPort := p.proxy.matchPort, host := p.proxy.host,
          port := p.proxy.port, notls := p.proxy.notls, reqca := p.reqca, proxy := p.proxy.proxy } }

/-- server.c:1527-1557, load_vhosts -/
def loadVhosts (openDir : Bytes → Option Int) (hs : List (WHost CLoc (Bytes × Bytes) CProxy LAddr Nat)) : Option (List Vhost) :=
  loadAll (loadHost openDir) hs

/-- config.c:548-558 for every IMSG_RECONF_MIME, then server.c:1596-1597: the table of types before it is sorted.
`none`: the process ends.  (Memory is available.) -/
def workerTypes (st : Worker) : Option (List Etm) :=
  match loadLoop true (st.mime.map fun m => ⟨m.1, m.2⟩) initMime with
  | .ok (m, true) =>
    match loadDefaultMime true m with
    | .ok (m, true) => some m.entries
    | _ => none
  | _ => none

/-- server.c:1591-1608, server_configure_done: `env` is what the request handler works with.  sort_mime (mime.c:123-127) is
qsort(3): some permutation sorted by extension. -/
structure ConfigureDone (openDir : Bytes → Option Int) (st : Worker) (env : Env) : Prop where
  types : ∃ t, workerTypes st = some t ∧ List.Perm env.mimes t ∧ env.mimes.Pairwise (fun a b => strcmp a.ext b.ext ≠ .gt)
  hosts : loadVhosts openDir st.hosts = some env.hosts
  fcgi : env.nFcgi = st.fcgi.length

end Gmid

import Verif.Model.Config

/-!
# Specification: the configuration a process should end up with

Given the parsed configuration and the contents of the files, what a server process and the crypto process should hold
after a reload, whatever they held before.
-/

set_option autoImplicit false

namespace Gmid.Spec

variable {L E P AD F C K : Type}

/-- the CA store read from a file, when a file is given -/
def expCa (files : Bytes → Option Bytes) (loadCa : Bytes → Option C) (path : Option Bytes) : Option C :=
  path.bind fun p => (files p).bind loadCa

/-- a location -/
def expLoc (files : Bytes → Option Bytes) (loadCa : Bytes → Option C) (l : PLoc L E) : WLoc L E C :=
  { loc := l.loc, reqca := expCa files loadCa l.reqca, params := l.params }

/-- a relay: the client certificate and its key are used when both are given -/
def expProxy (files : Bytes → Option Bytes) (loadCa : Bytes → Option C) (p : PProxy P) : WProxy P C :=
  { proxy := p.proxy, reqca := expCa files loadCa p.reqca
    cert := if p.key.isSome then p.cert.bind files else none
    key := if p.cert.isSome then p.key.bind files else none }

/-- a server block; the private key is there only without the crypto process -/
def expHost (files : Bytes → Option Bytes) (loadCa : Bytes → Option C) (privsep : Bool) (h : PHost L E P AD) : WHost L E P AD C :=
  { domain := h.domain
    cert := files h.cert
    key := if privsep then none else files h.key
    ocsp := h.ocsp.bind files
    addrs := h.addrs
    locs := h.locs.map (expLoc files loadCa)
    aliases := h.aliases
    proxies := h.proxies.map (expProxy files loadCa) }

/-- every CA given for a location or a relay can be loaded -/
def CasLoad (files : Bytes → Option Bytes) (loadCa : Bytes → Option C) (c : PConf L E P AD F) : Prop :=
  ∀ h ∈ c.hosts, ∀ path, (path ∈ h.locs.filterMap (·.reqca) ∨ path ∈ h.proxies.filterMap (·.reqca)) →
    ((files path).bind loadCa).isSome

/-- the mime mappings fit in their fields (128 bytes with the terminator) -/
def MimesFit (c : PConf L E P AD F) : Prop := ∀ m ∈ c.mime, m.1.length < 128 ∧ m.2.length < 128

/-- the certificate and the key of every server block can be loaded -/
def KeysLoad (files : Bytes → Option Bytes) (hash : Bytes → Option Bytes) (loadKey : Bytes → Option K) (c : PConf L E P AD F) : Prop :=
  ∀ h ∈ c.hosts, ((files h.cert).bind hash).isSome ∧ ((files h.key).bind loadKey).isSome

/-- `st` holds the configuration of `c`: the listening addresses are those the system supports, latest first -/
def Holds (files : Bytes → Option Bytes) (loadCa : Bytes → Option C) (sup : AD → Bool) (c : PConf L E P AD F)
    (st : WState L E P AD F C K) : Prop :=
  st.logFormat = c.logFormat ∧ st.mime = c.mime ∧ st.protos = c.protos ∧ st.addrs = (c.addrs.filter sup).reverse ∧
  st.fcgi = c.fcgi ∧ st.hosts = c.hosts.map (expHost files loadCa c.privsep)

/-- the descriptor a message carries -/
def fdOf : CMsg L E P AD F → Option Bytes
  | .cert fd | .key fd | .ocsp fd | .proxyCert fd | .proxyKey fd => some fd
  | .loc _ fd | .proxy _ fd => fd
  | _ => none

/-- the files a server process is meant to have: certificates, OCSP responses, CAs and the client certificates of relays -/
def publicPaths (c : PConf L E P AD F) : List Bytes :=
  c.hosts.flatMap fun h => [h.cert] ++ h.ocsp.toList ++ h.locs.filterMap (·.reqca) ++ h.proxies.filterMap (·.reqca) ++ h.proxies.filterMap (·.cert)

/-- the private keys of the server blocks -/
def serverKeys (c : PConf L E P AD F) : List Bytes := c.hosts.map (·.key)

/-- the private keys of the client certificates of relays -/
def relayKeys (c : PConf L E P AD F) : List Bytes := c.hosts.flatMap fun h => h.proxies.filterMap (·.key)

end Gmid.Spec

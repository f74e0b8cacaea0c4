import Verif.Model.UpTls
import Verif.Spec.TlsName
import Verif.Spec.Protocols
import Verif.Spec.Actions

/-!
# Whom a relayed request may be sent to
-/

set_option autoImplicit false

namespace Gmid.Spec

/-- the name of the upstream server: what `sni` says, if it says something, or the host of `relay-to`; the final dot of a full domain name is not part of it -/
def UpstreamName (opts : List ProxyOpt) (name : Bytes) : Prop :=
  ∃ s, (name = s ∧ (∀ t, s ≠ t ++ b%".") ∨ s = name ++ b%".") ∧
    ((lastOf pSniOf opts = some s ∧ s ≠ []) ∨ ((lastOf pSniOf opts = none ∨ lastOf pSniOf opts = some []) ∧ ∃ port, lastOf pRelayOf opts = some (s, port)))

/-- the version is one the block lets in: 1.2 or 1.3, and one of those its last `protocols` enables.  (What a list enables that keeps everything out and then goes
on with an exclusion is not what it says: C111.) -/
def LetIn (opts : List ProxyOpt) (v : TlsVer) : Prop :=
  (v = .tls12 ∨ v = .tls13) ∧
  ∀ s, lastOf pProtocolsOf opts = some s → ∃ fs ws, Fields s fs ∧ Words fs ws ∧ (NeverEmptied ws → Enabled ws v)

/-- the certificate is one for the upstream server, or the block says not to look -/
def CertFor (inet : Bytes → Option Bytes) (opts : List ProxyOpt) (cert : Option CertNames) : Prop :=
  lastOf pVerifyOf opts = some false ∨ ∃ c name, cert = some c ∧ UpstreamName opts name ∧ Covers (inet name) c name

/-- the `j`th proxy block of the `k`th server from the end of the file -/
def BlockAt (ds : List Directive) (k j : Nat) (y : List ProxyMatch × List ProxyOpt) : Prop :=
  ∃ x, (ds.filterMap serverOf).reverse[k]? = some x ∧ (x.2.filterMap proxyOf)[j]? = some y

/-- the relay of the configuration with these numbers -/
def RelayAt (c : CConf) (k j : Nat) (p : CProxy) : Prop := ∃ v, c.hosts[k]? = some v ∧ v.proxies[j]? = some p

end Gmid.Spec

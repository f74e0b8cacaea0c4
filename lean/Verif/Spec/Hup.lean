import Verif.Model.Hup
import Verif.Spec.Pki

/-!
# Specification: what a reload needs in order not to end gmid
-/

set_option autoImplicit false

namespace Gmid.Spec

section
variable {X K P : Type} (lib : PkiLib X K P)

/-- every file a server block names can be opened -/
def MainOpens (opened : Bytes → Option Bytes) (h : CHost) : Prop :=
  (∃ p, h.certPath = some p ∧ ∃ d, opened p = some d) ∧ (∃ p, h.keyPath = some p ∧ ∃ d, opened p = some d) ∧
  (∀ p, h.ocspPath = some p → ∃ d, opened p = some d) ∧
  (∀ l ∈ h.locs, ∀ p, l.reqcaPath = some p → ∃ d, opened p = some d) ∧
  ∀ r ∈ h.proxies, (∀ p, r.reqcaPath = some p → ∃ d, opened p = some d) ∧
    ∀ a b, r.certPath = some a → r.keyPath = some b → (∃ d, opened a = some d) ∧ ∃ d, opened b = some d

/-- a server process can use the files of a server block, given what it reads: the certificate, with its key or, when that is in the crypto process, of a kind that can be used
from there; the CAs; the others only have to be read -/
def ServerUses (read : Bytes → Option Bytes) (loadCa : Bytes → Option Nat) (privsep : Bool) (h : CHost) : Prop :=
  (∃ p cert x, h.certPath = some p ∧ read p = some cert ∧ CertFile lib cert x ∧
    (privsep = true → lib.kind (lib.pub x) ≠ .other) ∧
    (privsep = false → ∃ q key k, h.keyPath = some q ∧ read q = some key ∧ lib.key key = some k ∧ lib.keyPub k = lib.pub x)) ∧
  (∀ p, h.ocspPath = some p → ∃ d, read p = some d) ∧
  (∀ l ∈ h.locs, ∀ p, l.reqcaPath = some p → ∃ d ca, read p = some d ∧ loadCa d = some ca) ∧
  ∀ r ∈ h.proxies, (∀ p, r.reqcaPath = some p → ∃ d ca, read p = some d ∧ loadCa d = some ca) ∧
    ∀ a b, r.certPath = some a → r.keyPath = some b → (∃ d, read a = some d) ∧ ∃ d, read b = some d

/-- it can open the directories -/
def DirsOpen (openDir : Bytes → Option Int) (h : CHost) : Prop := ∀ l ∈ h.locs, l.dir ≠ [] → ∃ fd, openDir l.dir = some fd

/-- the crypto process can use the certificate and the key -/
def CryptoUses (read : Bytes → Option Bytes) (h : CHost) : Prop :=
  ∃ p q cert key x chain k, h.certPath = some p ∧ h.keyPath = some q ∧ read p = some cert ∧ lib.pems cert = x :: chain ∧ read q = some key ∧ lib.key key = some k

/-- everybody can use everything the configuration names -/
def AllUsable (loadCa : Bytes → Option Nat) (privsep : Bool) (opened : Bytes → Option Bytes) (servers : List ServerNow) (cview : SeenFiles) (c : CConf) : Prop :=
  ∀ h ∈ c.hosts, MainOpens opened h ∧ (∀ s ∈ servers, ServerUses lib s.view.read loadCa privsep h ∧ DirsOpen s.openDir h) ∧
    (privsep = true → CryptoUses lib cview.read h)

end

end Gmid.Spec

import Verif.Model.Pki
import Verif.Spec.Config

/-!
# Specification: names of public keys, certificates that match their keys
-/

set_option autoImplicit false

namespace Gmid.Spec

/-- the value of a lowercase hexadecimal digit -/
def HexDigit (c : UInt8) (n : Nat) : Prop := (c.toNat = 48 + n ∧ n < 10) ∨ (c.toNat = 87 + n ∧ 10 ≤ n ∧ n < 16)

/-- the bytes in hexadecimal, two digits each, the high one first -/
inductive Hex : Bytes → Bytes → Prop
  | nil : Hex [] []
  | byte (c a b : UInt8) (hi lo : Nat) (d s : Bytes) : HexDigit a hi → HexDigit b lo → c.toNat = 16 * hi + lo → Hex d s → Hex (c :: d) (a :: b :: s)

/-- how a public key with this SHA-256 digest is called -/
def KeyName (digest s : Bytes) : Prop := ∃ h, Hex digest h ∧ s = b%"SHA256:" ++ h

section
variable {X K P : Type} (lib : PkiLib X K P)

/-- the contents of a certificate file: certificates, of which the first is the one shown to the clients, and nothing that is not one -/
def CertFile (d : Bytes) (x : X) : Prop := (∃ chain, lib.pems d = x :: chain) ∧ lib.clean d = true

/-- the contents of a certificate file and of a key file, for the same public key -/
def Pair (cert key : Bytes) : Prop := ∃ x k, CertFile lib cert x ∧ lib.key key = some k ∧ lib.keyPub k = lib.pub x

/-- the digest works, as SHA-256 does -/
def Digests : Prop := ∀ p, ∃ d, lib.digest p = some d ∧ d.length = 32

/-- no two public keys have the same one -/
def NoCollision : Prop := ∀ p q d, lib.digest p = some d → lib.digest q = some d → p = q

/-- the certificate of a server, and its key, from their files -/
def HostHas {L E PR AD : Type} (files : Bytes → Option Bytes) (h : PHost L E PR AD) (x : X) (k : K) : Prop :=
  ∃ cert key chain, files h.cert = some cert ∧ lib.pems cert = x :: chain ∧ files h.key = some key ∧ lib.key key = some k

/-- the certificate and the key of a server can be read and are for the same public key -/
def HostOk (files : Bytes → Option Bytes) (h : CHost) : Prop :=
  ∃ p q cert key, h.certPath = some p ∧ h.keyPath = some q ∧ files p = some cert ∧ files q = some key ∧ Pair lib cert key

end

/-- where a directory of the configuration is -/
def inChroot (chroot dir : Bytes) : Bytes := if chroot = [] then dir else chroot ++ b%"/" ++ dir

/-- the directories that are served can be opened, and with the chroot their names have less than PATH_MAX bytes -/
def RootsOpen (dirs : Bytes → Option Int) (c : CConf) : Prop :=
  ∀ h ∈ c.hosts, ∀ l ∈ h.locs, l.dir ≠ [] → (∃ fd, dirs (inChroot c.chroot l.dir) = some fd) ∧ (c.chroot ≠ [] → (inChroot c.chroot l.dir).length < 4096)

/-- the other files named by the configuration can be read: OCSP responses, CAs, certificates and keys of the relays -/
def OtherFiles (files : Bytes → Option Bytes) (caOk : Bytes → Prop) (c : CConf) : Prop :=
  ∀ h ∈ c.hosts, (∀ o, h.ocspPath = some o → ∃ d, files o = some d) ∧
    (∀ l ∈ h.locs, ∀ p, l.reqcaPath = some p → ∃ d, files p = some d ∧ caOk d) ∧
    (∀ r ∈ h.proxies, (∀ p, r.reqcaPath = some p → ∃ d, files p = some d ∧ caOk d) ∧
      ∀ a b, r.certPath = some a → r.keyPath = some b → (∃ d, files a = some d) ∧ ∃ d, files b = some d)

end Gmid.Spec

import Verif.Model.TlsName

/-!
# What a certificate is good for, after RFC 6125
-/

set_option autoImplicit false

namespace Gmid.Spec

/-- letters compared without case -/
def SameName (a b : Bytes) : Prop := a.map toLower = b.map toLower

/-- `*.example.com` stands for one label, and the rest has at least two -/
def WildcardMatches (cert name : Bytes) : Prop :=
  ∃ a b label rest : Bytes, cert = b%"*." ++ a ++ b%"." ++ b ∧ a ≠ [] ∧ c%'.' ∉ a ∧ b.head? ≠ some c%'.' ∧
    name = label ++ b%"." ++ rest ∧ label ≠ [] ∧ c%'.' ∉ label ∧ SameName (a ++ b%"." ++ b) rest

def NameMatches (cert name : Bytes) : Prop := SameName cert name ∨ WildcardMatches cert name

/-- one of the alternative names is `name`, or the address `ip` that it stands for -/
def AltCovers (ip : Option Bytes) (alts : List AltName) (name : Bytes) : Prop :=
  (∃ a, ip = some a ∧ .ip a ∈ alts) ∨ (ip = none ∧ ∃ d, .dns true d ∈ alts ∧ NameMatches d name)

/-- the certificate is for `name`, which is the address `ip` if it is one: one of its alternative names is, or it has none and its common name is -/
def Covers (ip : Option Bytes) (c : CertNames) (name : Bytes) : Prop :=
  ∃ alts, c.alts = some alts ∧
    (AltCovers ip alts name ∨
     ((∀ x ∈ alts, x = .other) ∧ ∃ cn, c.cns = [some cn] ∧ 1 ≤ cn.length ∧ cn.length ≤ 64 ∧ 0 ∉ cn ∧
       ((ip ≠ none ∧ cn = name) ∨ (ip = none ∧ NameMatches cn name))))

/-- a certificate as it should be: one common name at most, none of whose names has a NUL in it -/
def ProperCert (c : CertNames) : Prop :=
  (∃ alts, c.alts = some alts ∧ ∀ d, .dns true d ∈ alts → 0 ∉ d ∧ d ≠ b%" ") ∧
  (c.cns = [] ∨ ∃ cn, c.cns = [some cn] ∧ 1 ≤ cn.length ∧ cn.length ≤ 64 ∧ 0 ∉ cn)

/-- the key pairs of the servers that listen on `addr`, in the order of the configuration -/
def listening (addr : AddrInfo) (hosts : List TServer) : List KP := hosts.flatMap fun h => (h.addrs.filter (· == addr)).map fun _ => h.kp

end Gmid.Spec

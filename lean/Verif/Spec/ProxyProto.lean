import Verif.Spec.Compat

/-!
# Specification: the PROXY protocol, version 1

The line `PROXY TCP4|TCP6 source destination source-port destination-port CRLF`.
-/

set_option autoImplicit false

namespace Gmid.Spec

/-- the decimal text of a port -/
def PortText (t : List UInt8) (p : Nat) : Prop := t ≠ [] ∧ (∀ c ∈ t, 48 ≤ c ∧ c ≤ 57) ∧ decValue t = p ∧ p < 65536

/-- an address is a text without blanks, line breaks or NULs -/
def AddrText (t : List UInt8) : Prop := ∀ c ∈ t, c ≠ 32 ∧ c ≠ 13 ∧ c ≠ 10 ∧ c ≠ 0

/-- the header line for a family (4 or 6), two address texts and two port texts -/
def v1line (fam : Nat) (src dst sport dport : List UInt8) : List UInt8 :=
  [80, 82, 79, 88, 89, 32, 84, 67, 80, if fam = 4 then 52 else 54, 32] ++ src ++ [32] ++ dst ++ [32] ++ sport ++ [32] ++ dport ++ [13, 10]

/-- What the parser takes for such a line: ports may have leading blanks (not spaces or CR) and a sign, and each may be ended by a
space or a CR; the last is followed by LF. -/
structure LooseV1 (fam : Nat) (src dst sport dport : List UInt8) (p q : Nat) (line : List UInt8) : Prop where
  ok_fam : fam = 4 ∨ fam = 6
  ok_src : (32 : UInt8) ∉ src
  ok_dst : (32 : UInt8) ∉ dst
  ok_sport : (∀ c ∈ sport, c ≠ 32 ∧ c ≠ 13) ∧ StrtonumForm sport p ∧ p < 65536
  ok_dport : (∀ c ∈ dport, c ≠ 32 ∧ c ≠ 13) ∧ StrtonumForm dport q ∧ q < 65536
  nul : (0 : UInt8) ∉ line
  shape : ∃ s1 s2 : UInt8, (s1 = 32 ∨ s1 = 13) ∧ (s2 = 32 ∨ s2 = 13) ∧
    line = [80, 82, 79, 88, 89, 32, 84, 67, 80, if fam = 4 then 52 else 54, 32] ++ src ++ [32] ++ dst ++ [32] ++ sport ++ [s1] ++ dport ++ [s2, 10]

end Gmid.Spec

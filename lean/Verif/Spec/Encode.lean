import Verif.Spec.Iri

set_option autoImplicit false

/-! # Percent-encoding of a file name, as a function on bytes -/

namespace Gmid.Spec

instance (c : UInt8) : Decidable (PathChar c) := by unfold PathChar Unreserved SubDelim; infer_instance

/-- upper-case hexadecimal digit of value `n` -/
def hexUpper (n : Nat) : UInt8 := b%"0123456789ABCDEF".getD n 0

/-- a path character stands for itself, every other byte is `%XY` -/
def encByte (c : UInt8) : List UInt8 :=
  if PathChar c then [c] else [c%'%', hexUpper (c.toNat / 16), hexUpper (c.toNat % 16)]

/-- the encoding of a name -/
def encName (p : List UInt8) : List UInt8 := p.flatMap encByte

end Gmid.Spec

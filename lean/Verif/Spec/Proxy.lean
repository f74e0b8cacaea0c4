import Verif.Spec.Fcgi

/-!
# Specification: relayed replies

A valid reply starts with a gemini header (`HasHeader`, Spec/Fcgi.lean).
-/

set_option autoImplicit false

namespace Gmid.Spec

/-- `o` starts with a header, but the status code may be separated by any white space byte; `body` follows -/
def LooseHeader (o : List UInt8) (code : Nat) (text body : List UInt8) : Prop :=
  ∃ d1 d2 s : UInt8, 48 ≤ d1 ∧ d1 ≤ 57 ∧ 48 ≤ d2 ∧ d2 ≤ 57 ∧ (s = 32 ∨ 9 ≤ s ∧ s ≤ 13) ∧
    code = (d1.toNat - 48) * 10 + (d2.toNat - 48) ∧
    10 ≤ code ∧ code < 70 ∧ text.length ≤ 1024 ∧ NoCrlf (d1 :: d2 :: s :: text) ∧
    o = d1 :: d2 :: s :: text ++ [13, 10] ++ body

end Gmid.Spec

import Verif.Model.Basic

/-!
# Specification: the encoding of vis(3), by its decoder
-/

set_option autoImplicit false

namespace Gmid.Spec

/-- the control character written `^x` -/
def ctrlOf (x : UInt8) : UInt8 := if x = c%'?' then 127 else x - 64

/-- unvis(3): the text encoded by a vis(3) string; `none` if it is not one.  `\\` and `\"` stand for
the second character, `\ooo` for the byte with that octal number, `\^x` for a control character,
`\M-x` and `\M^x` for the byte of `x` or of the control character with the top bit set; every other
byte for itself. -/
def unvis : List UInt8 → Option (List UInt8)
  | [] => some []
  | 92 :: 92 :: s => (unvis s).map (92 :: ·)
  | 92 :: 34 :: s => (unvis s).map (34 :: ·)
  | 92 :: 94 :: x :: s => (unvis s).map (ctrlOf x :: ·)
  | 92 :: 77 :: 45 :: x :: s => (unvis s).map ((x + 128) :: ·)
  | 92 :: 77 :: 94 :: x :: s => (unvis s).map ((ctrlOf x + 128) :: ·)
  | 92 :: a :: b :: c :: s =>
    if a ∈ b%"0123" ∧ b ∈ b%"01234567" ∧ c ∈ b%"01234567" then
      (unvis s).map (((a - 48) * 64 + (b - 48) * 8 + (c - 48)) :: ·)
    else none
  | x :: s => if x = 92 then none else (unvis s).map (x :: ·)

/-- printable and not blank -/
def Graphic (c : UInt8) : Prop := 33 ≤ c ∧ c ≤ 126
instance (c : UInt8) : Decidable (Graphic c) := inferInstanceAs (Decidable (_ ∧ _))

/-- a control character of ASCII -/
def Control (c : UInt8) : Prop := c < 32 ∨ c = 127
instance (c : UInt8) : Decidable (Control c) := inferInstanceAs (Decidable (_ ∨ _))

/-- every double quote is preceded by an (odd) backslash: the text cannot end a quoted string -/
def QuotesEscaped : List UInt8 → Prop
  | [] => True
  | [x] => x ≠ 34 ∧ x ≠ 92
  | x :: y :: s => if x = 92 then QuotesEscaped s else x ≠ 34 ∧ QuotesEscaped (y :: s)

end Gmid.Spec

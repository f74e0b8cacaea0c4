import Verif.Model.Basic

/-!
# Specifications for the libc replacements: decimal numerals, first occurrence, lexicographic order
-/

set_option autoImplicit false

namespace Gmid.Spec

/-- the number a sequence of decimal digits stands for -/
def decValue : List UInt8 → Nat
  | [] => 0
  | c :: r => (c.toNat - 48) * 10 ^ r.length + decValue r

/-- `s` is, after blanks, a decimal integer with an optional sign, and `v` is its value. -/
def StrtonumForm (s : List UInt8) (v : Int) : Prop :=
  ∃ blanks sign digits : List UInt8, s = blanks ++ sign ++ digits ∧
    (∀ c ∈ blanks, c = 32 ∨ (9 ≤ c ∧ c ≤ 13)) ∧ digits ≠ [] ∧ (∀ c ∈ digits, 48 ≤ c ∧ c ≤ 57) ∧
    ((sign = [] ∨ sign = [43]) ∧ v = decValue digits ∨ sign = [45] ∧ v = - (decValue digits : Int))

/-- `n` occurs in `h` at offset `i` and at no smaller offset -/
def FirstAt (h n : List UInt8) (i : Nat) : Prop := n <+: h.drop i ∧ ∀ j < i, ¬ n <+: h.drop j

/-- lexicographic order on sequences of unsigned bytes of the same length -/
def LexLt : List UInt8 → List UInt8 → Prop
  | a :: r, b :: s => a < b ∨ (a = b ∧ LexLt r s)
  | _, _ => False

end Gmid.Spec

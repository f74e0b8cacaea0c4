import Verif.Model.Basic

/-!
# Specification of UTF-8 (RFC 3629), independent of the automaton

`enc cp` is the encoding of a code point by definition (section 3 of the RFC), `IsScalar` the
legal code points, and `Multi s` says that `s` is the encoding of one non-ASCII character.
-/

set_option autoImplicit false

namespace Gmid.Spec

/-- Legal code points: up to U+10FFFF, surrogates D800-DFFF excluded. -/
def IsScalar (cp : Nat) : Prop := cp ≤ 0x10FFFF ∧ ¬ (0xD800 ≤ cp ∧ cp ≤ 0xDFFF)

instance (cp : Nat) : Decidable (IsScalar cp) := by unfold IsScalar; infer_instance

/-- RFC 3629 section 3: 1, 2, 3 or 4 byte encoding of a code point. -/
def utf8Enc (cp : Nat) : List UInt8 :=
  if cp < 0x80 then [UInt8.ofNat cp]
  else if cp < 0x800 then [UInt8.ofNat (0xC0 + cp / 64), UInt8.ofNat (0x80 + cp % 64)]
  else if cp < 0x10000 then
    [UInt8.ofNat (0xE0 + cp / 4096), UInt8.ofNat (0x80 + cp / 64 % 64), UInt8.ofNat (0x80 + cp % 64)]
  else
    [UInt8.ofNat (0xF0 + cp / 262144), UInt8.ofNat (0x80 + cp / 4096 % 64),
     UInt8.ofNat (0x80 + cp / 64 % 64), UInt8.ofNat (0x80 + cp % 64)]

/-- `s` is the UTF-8 encoding of the non-ASCII character `cp`. -/
def Utf8Char (cp : Nat) (s : List UInt8) : Prop := 0x80 ≤ cp ∧ IsScalar cp ∧ s = utf8Enc cp

/-- `s` is the UTF-8 encoding of some non-ASCII character. -/
def Utf8Multi (s : List UInt8) : Prop := ∃ cp, Utf8Char cp s

/-- `s` is well-formed UTF-8 text (a concatenation of encoded scalar values). -/
inductive Utf8Text : List UInt8 → Prop where
  | nil : Utf8Text []
  | cons (cp : Nat) (s : List UInt8) : IsScalar cp → Utf8Text s → Utf8Text (utf8Enc cp ++ s)

end Gmid.Spec

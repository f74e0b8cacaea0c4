import Verif.Model.SafePrint
import Verif.Spec.Vis
import Verif.Spec.Utf8

/-!
# Specification: text that is safe to show on a terminal
-/

set_option autoImplicit false

namespace Gmid.Spec

/-- a locale: mbtowc finds the character that a string begins with, its bytes are those that putwc writes, and control characters are not printable -/
structure LocaleOk (loc : Locale) : Prop where
  found : ∀ s n wc, loc.mbtowc s = some (n, wc) → 0 < n ∧ n ≤ s.length ∧ s.take n = loc.enc wc
  control : ∀ wc, loc.printable wc = true → ∀ b ∈ loc.enc wc, ¬ Control b
  newline : loc.printable 10 = false

/-- `ShownText loc s o`: `o` is `s` with a question mark for every character that is not printable and every byte that no character begins with -/
inductive ShownText (loc : Locale) : Bytes → Bytes → Prop where
  | done : ShownText loc [] []
  | char (e : Bytes) (wc : Nat) (s o : Bytes) (he : loc.mbtowc (e ++ s) = some (e.length, wc)) (hp : loc.printable wc = true) (h : ShownText loc s o) :
      ShownText loc (e ++ s) (e ++ o)
  | hidden (e : Bytes) (wc : Nat) (s o : Bytes) (he : loc.mbtowc (e ++ s) = some (e.length, wc)) (hp : loc.printable wc = false) (h : ShownText loc s o) :
      ShownText loc (e ++ s) (c%'?' :: o)
  | stray (b : UInt8) (s o : Bytes) (he : loc.mbtowc (b :: s) = none) (h : ShownText loc s o) : ShownText loc (b :: s) (c%'?' :: o)

/-- text made of printable characters -/
inductive PrintableText (loc : Locale) : Bytes → Prop where
  | nil : PrintableText loc []
  | cons (e : Bytes) (wc : Nat) (s : Bytes) (he : loc.mbtowc (e ++ s) = some (e.length, wc)) (hp : loc.printable wc = true) (h : PrintableText loc s) :
      PrintableText loc (e ++ s)

/-- a UTF-8 locale: mbtowc finds the character whose encoding a string begins with (gg does not ask for NUL), putwc writes the encoding, and printable are only characters that are
not ASCII control characters -/
structure Utf8Locale (loc : Locale) : Prop where
  mb : ∀ s n cp, loc.mbtowc s = some (n, cp) ↔ IsScalar cp ∧ cp ≠ 0 ∧ n = (utf8Enc cp).length ∧ utf8Enc cp <+: s
  enc : ∀ cp, loc.enc cp = utf8Enc cp
  scalar : ∀ cp, loc.printable cp = true → IsScalar cp
  control : ∀ cp, loc.printable cp = true → 32 ≤ cp ∧ cp ≠ 127

end Gmid.Spec

import Verif.Model.Clients

/-!
# What gg says on the standard error

safeprint (gg.c:187-204) in a locale.
-/

set_option autoImplicit false

namespace Gmid

/-- what gg uses of the locale (gg.c:394): mbtowc(3) on a string with MB_CUR_MAX, as the length and the character, `none` for -1; wcwidth(3) is not -1;
the bytes putwc(3) writes for a character -/
structure Locale where
  mbtowc : Bytes → Option (Nat × Nat)
  printable : Nat → Bool
  enc : Nat → Bytes

/-- gg.c:192-201, the loop of safeprint; `wide`: putwc writes even though stderr is byte-oriented since the fprintf of gg.c:312 (ISO C leaves it
undefined; glibc's fails).  The fuel bounds the rounds: mbtowc of a string that is not empty is not 0. -/
def safeLoop (loc : Locale) (wide : Bool) : Nat → Bytes → Bytes
  | 0, _ => []
  | n + 1, s =>
    match s with
    | [] => []
    | _ :: t =>
      match loc.mbtowc s with
      | none => c%'?' :: safeLoop loc wide n t
      | some (len, wc) =>
        (if loc.printable wc = false then [c%'?'] else if wc = 10 then [] else if wide then loc.enc wc else []) ++ safeLoop loc wide n (s.drop len)

/-- gg.c:187-204, safeprint -/
def safeprint (loc : Locale) (wide : Bool) (s : Bytes) : Bytes := safeLoop loc wide (s.length + 1) s ++ b%"\n"

/-- gg.c:311-315, in get: what is written to the standard error -/
def ggStderr (loc : Locale) (wide : Bool) (o : GgOut) : Bytes :=
  match o.says with
  | none => []
  | some s => b%"Server says: " ++ safeprint loc wide s

end Gmid

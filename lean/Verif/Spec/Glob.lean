import Verif.Spec.Protect
import Verif.Spec.Deploy

/-!
# Specification: what a pattern with asterisks stands for

POSIX, shell pattern matching, for patterns of plain text and asterisks (`?`, bracket expressions and the backslash are left out: what a character is
depends on the locale).
-/

set_option autoImplicit false

namespace Gmid.Spec

/-- the pattern covers the text: plain characters stand for themselves, an asterisk for any text, also none, also with slashes -/
inductive Glob : List UInt8 → List UInt8 → Prop
  | done : Glob [] []
  | same (x : UInt8) (p s : List UInt8) : x ≠ c%'*' → Glob p s → Glob (x :: p) (x :: s)
  | any (p t s : List UInt8) : Glob p s → Glob (c%'*' :: p) (t ++ s)

/-- a pattern of plain text and asterisks -/
def StarPattern (p : List UInt8) : Prop := ∀ c ∈ p, c ∉ b%"?[\\"

/-- a matcher that does what POSIX says about such patterns -/
def GlobSpec (fnm : List UInt8 → List UInt8 → Bool) : Prop := ∀ p s, StarPattern p → (fnm p s = true ↔ Glob p s)

/-- a matcher: an asterisk is tried with everything that may be left after it -/
def globRef : List UInt8 → List UInt8 → Bool
  | [], s => s.isEmpty
  | x :: p, s =>
    if x = c%'*' then (List.range (s.length + 1)).any (fun k => globRef p (s.drop k))
    else match s with
      | [] => false
      | y :: s => x == y && globRef p s

/-- a path as the parser returns it does not begin with a slash -/
def Relative (path : Bytes) : Prop := path.head? ≠ some c%'/'

/-- a name, of a server or an alias, for the name a client asks for: the same, or `*.` and the end of it -/
def NameCovers (p name : Bytes) : Prop := (GlobPlain p ∧ name = p) ∨ ∃ e sub, GlobPlain e ∧ p = b%"*." ++ e ∧ name = sub ++ b%"." ++ e

/-- the names of a server that are plain or begin with `*.` -/
def UsualNames (x : Bytes × List SrvOpt) : Prop := ∀ p, (p = x.1 ∨ p ∈ x.2.filterMap aliasOf) → GlobPlain p ∨ ∃ e, GlobPlain e ∧ p = b%"*." ++ e

end Gmid.Spec

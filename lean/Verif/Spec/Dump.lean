import Verif.Spec.Text
import Verif.Spec.Actions

/-!
# Specification: the dump of a configuration
-/

set_option autoImplicit false

namespace Gmid.Spec

/-- a string that stands for itself between double quotes: no double quotes, no backslashes, no newlines, none of the bytes 0, 1 and 2 -/
def Verbatim (s : Bytes) : Prop := (∀ c ∈ s, Quotable c ∧ c ≠ c%'"' ∧ c ≠ c%'\\') ∧ s.length ≤ 8094

/-- the directory the program changes root to: the one of the file or else the home directory of the user of the file, if it has one -/
def chrootDir (home : Bytes → Option Bytes) (ds : List Directive) : Bytes :=
  if (lastOf chrootOf ds).getD [] ≠ [] then (lastOf chrootOf ds).getD []
  else if (lastOf userOf ds).getD [] ≠ [] then ((home ((lastOf userOf ds).getD [])).getD []).take 4095
  else []

/-- what the dump shows of a file: the directory, the number of processes, the user and, of every server from the last to the first,
its name, its certificate and its key -/
def dumped (home : Bytes → Option Bytes) (ds : List Directive) : List Directive :=
  (if chrootDir home ds ≠ [] then [.chroot (chrootDir home ds)] else []) ++
  [.prefork ((lastOf preforkOf ds).getD 3)] ++
  (if (lastOf userOf ds).getD [] ≠ [] then [.user ((lastOf userOf ds).getD [])] else []) ++
  (ds.filterMap serverOf).reverse.map fun x => .server x.1 [.cert ((lastOf certOf x.2).getD []), .key ((lastOf keyOf x.2).getD [])]

/-- all its strings stand for themselves between quotes -/
def DumpVerbatim (home : Bytes → Option Bytes) (ds : List Directive) : Prop :=
  Verbatim (chrootDir home ds) ∧ Verbatim ((lastOf userOf ds).getD []) ∧
  ∀ x ∈ ds.filterMap serverOf, Verbatim x.1 ∧ Verbatim ((lastOf certOf x.2).getD []) ∧ Verbatim ((lastOf keyOf x.2).getD [])

end Gmid.Spec

import Verif.Model.Server
import Verif.Spec.Path

/-!
# The names of files that a server opens
-/

set_option autoImplicit false

namespace Gmid.Spec

/-- a name that stays below the directory it is opened from -/
def SafeName (name : Bytes) : Prop :=
  name ≠ [] ∧ name.head? ≠ some c%'/' ∧ b%".." ∉ splitSlash name ∧ (0 : UInt8) ∉ name

/-- the name asked for: the path, or what follows its first component when `strip` is in force; "."
for the root itself -/
def NameFor (strip : Int) (path name : Bytes) : Prop :=
  (strip ≤ 0 → name = if path = [] then b%"." else path) ∧
  (0 < strip → name = if joinSlash ((splitSlash path).drop 1) = [] then b%"."
    else joinSlash ((splitSlash path).drop 1))

end Gmid.Spec

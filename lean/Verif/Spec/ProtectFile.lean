import Verif.Spec.Deploy
import Verif.Spec.Protect

/-!
# Specification: a protected directory, as it is written in the configuration file
-/

set_option autoImplicit false

namespace Gmid.Spec

/-- the server of the file has a block `location "/d/*"`, with these options, and no location before it sets `f` -/
def DirBlockFile {β : Type} (f : LocOpt → Option β) (body : List SrvOpt) (d : Bytes) (os : List LocOpt) : Prop :=
  GlobPlain d ∧ ∃ before after, body.filterMap locationOf = before ++ (b%"/" ++ d ++ b%"/*", os) :: after ∧ ∀ y ∈ before, ∀ o ∈ y.2, f o = none

/-- an option that leaves names as they are: it is not `strip`, nor an `index` with a slash -/
def LeavesNames : LocOpt → Prop
  | .strip _ => False
  | .index s => c%'/' ∉ s
  | _ => True

/-- neither the server nor its locations change names -/
def PlainNamesFile (body : List SrvOpt) : Prop :=
  (∀ o ∈ body.filterMap optOf, LeavesNames o) ∧ ∀ y ∈ body.filterMap locationOf, ∀ o ∈ y.2, LeavesNames o

end Gmid.Spec

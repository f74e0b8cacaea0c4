import Verif.Spec.Server
import Verif.Spec.Exec
import Verif.Spec.Compat

/-!
# Specification of gemexp, after gemexp(1)
-/

set_option autoImplicit false

namespace Gmid.Spec

/-- options of gemexp(1) without an argument -/
def geFlags : List UInt8 := [c%'h', c%'R', c%'V', c%'v']

/-- options of gemexp(1) with an argument -/
def geWithArg : List UInt8 := [c%'d', c%'H', c%'p']

/-- the arguments `args` are written correctly and give the options `os`, each with its argument -/
inductive GeLine : List Bytes → List (UInt8 × Bytes) → Prop where
  | nil : GeLine [] []
  | flag (c : UInt8) (rest : List Bytes) (os : List (UInt8 × Bytes)) : c ∈ geFlags → GeLine rest os → GeLine ([c%'-', c] :: rest) ((c, []) :: os)
  | apart (c : UInt8) (v : Bytes) (rest : List Bytes) (os : List (UInt8 × Bytes)) : c ∈ geWithArg → GeLine rest os →
      GeLine ([c%'-', c] :: v :: rest) ((c, v) :: os)
  | joined (c : UInt8) (v : Bytes) (rest : List Bytes) (os : List (UInt8 × Bytes)) : c ∈ geWithArg → v ≠ [] → GeLine rest os →
      GeLine ((c%'-' :: c :: v) :: rest) ((c, v) :: os)

/-- what may be left of the command line: nothing, or a directory, which may not look like an option unless `--` precedes it -/
inductive GeRest : List Bytes → Option Bytes → Prop where
  | none : GeRest [] none
  | dashes : GeRest [b%"--"] none
  | dir (d : Bytes) : (∀ r, d ≠ c%'-' :: r) ∨ d = b%"-" → GeRest [d] (some d)
  | dashesDir (d : Bytes) : GeRest [b%"--", d] (some d)

/-- the text is a decimal number from 0 to 65535, as strtonum(3) reads them -/
def GePort (v : Bytes) (n : Int) : Prop := StrtonumForm v n ∧ 0 ≤ n ∧ n ≤ 65535

/-- a relative name, without `..`, so that it names something below the directory it is opened from (links apart) -/
def Below (name : Bytes) : Prop :=
  name ≠ [] ∧ name.head? ≠ some c%'/' ∧ b%".." ∉ splitSlash name ∧ (0 : UInt8) ∉ name

/-- an absolute path made of these names -/
def absPath : List Bytes → Bytes
  | [] => []
  | a :: r => c%'/' :: (a ++ absPath r)

/-- a name that may stand between slashes -/
def PathName (a : Bytes) : Prop := a ≠ [] ∧ c%'/' ∉ a

end Gmid.Spec

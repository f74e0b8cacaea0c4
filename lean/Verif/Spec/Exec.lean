import Verif.Model.Basic

/-!
# Specification of a command line, after gmid(8) and the utility syntax guidelines of POSIX
-/

set_option autoImplicit false

namespace Gmid.Spec

/-- options without an argument: those of gmid(8) -/
def flagLetters : List UInt8 := [c%'f', c%'h', c%'n', c%'V', c%'v']

/-- options with an argument: those of gmid(8) -/
def argLetters : List UInt8 := [c%'c', c%'D', c%'P']

/-- the arguments `args` are written correctly and give the options `os`, each with its argument: `-f`, `-c path`, `-cpath`, `-fv`, `-fc path` -/
inductive CmdLine : List Bytes → List (UInt8 × Bytes) → Prop where
  | nil : CmdLine [] []
  | flag (c : UInt8) (rest : List Bytes) (os : List (UInt8 × Bytes)) : c ∈ flagLetters → CmdLine rest os → CmdLine ([c%'-', c] :: rest) ((c, []) :: os)
  | apart (c : UInt8) (v : Bytes) (rest : List Bytes) (os : List (UInt8 × Bytes)) : c ∈ argLetters → CmdLine rest os →
      CmdLine ([c%'-', c] :: v :: rest) ((c, v) :: os)
  | joined (c : UInt8) (v : Bytes) (rest : List Bytes) (os : List (UInt8 × Bytes)) : c ∈ argLetters → v ≠ [] → CmdLine rest os →
      CmdLine ((c%'-' :: c :: v) :: rest) ((c, v) :: os)
  | cluster (c : UInt8) (r : Bytes) (rest : List Bytes) (os : List (UInt8 × Bytes)) : c ∈ flagLetters → CmdLine ((c%'-' :: r) :: rest) os →
      r ≠ [] → CmdLine ((c%'-' :: c :: r) :: rest) ((c, []) :: os)

/-- the argument of the last option `c` -/
def lastArg (c : UInt8) : List (UInt8 × Bytes) → Option Bytes
  | [] => none
  | x :: r =>
    match lastArg c r with
    | some v => some v
    | none => if x.1 = c then some x.2 else none

/-- the path `p`, as it is meant in the directory `wd` -/
def fromDir (wd : Bytes) : Bytes → Bytes
  | [] => wd ++ b%"/"
  | c :: r => if c = c%'/' then c :: r else wd ++ b%"/" ++ c :: r

end Gmid.Spec

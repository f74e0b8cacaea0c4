import Verif.Model.Basic

/-! # Model of the string helpers of utils.c -/

set_option autoImplicit false

namespace Gmid

/-- strchr(s, '/'): the suffix at the first slash -/
def strchrSlash : Bytes → Option Bytes
  | [] => none
  | c :: r => if c = c%'/' then some (c :: r) else strchrSlash r

/-- utils.c:47-55, the loop of strip_path: note that `path` is left *at* the slash found, where
the next strchr finds it again. -/
def stripLoopN : Nat → Bytes → Bytes
  | 0, path => path
  | n + 1, path =>
    match strchrSlash path with
    | none => []
    | some t => stripLoopN n t

/-- utils.c:43-58, strip_path -/
def stripPath (path : Bytes) (strip : Int) : Bytes := stripLoopN strip.toNat path

/-- utils.c:60-76, ends_with: compares the tail of `str` with `sufx`.  When the lengths allow it,
the loop runs over exactly the suffix's length. -/
def endsWith (str sufx : Bytes) : Bool :=
  if sufx.length > str.length then false else str.drop (str.length - sufx.length) == sufx

end Gmid

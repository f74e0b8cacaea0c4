import Verif.Model.Basic

/-!
# Specification of path normalisation: dot-segment removal on a list of components
-/

set_option autoImplicit false

namespace Gmid.Spec

/-- The components of a path: the pieces between slashes (a path with `n` slashes has `n+1`). -/
def splitSlash : List UInt8 → List (List UInt8)
  | [] => [[]]
  | c :: r =>
    if c = 47 then [] :: splitSlash r
    else match splitSlash r with
      | [] => [[c]]
      | h :: t => (c :: h) :: t

/-- Put components back together with slashes in between. -/
def joinSlash : List (List UInt8) → List UInt8
  | [] => []
  | [a] => a
  | a :: b :: t => a ++ 47 :: joinSlash (b :: t)

/-- Process one component: empty and "." are ignored, ".." undoes the last surviving component. -/
def pushComp (stack : List (List UInt8)) (c : List UInt8) : List (List UInt8) :=
  if c = [] ∨ c = [46] then stack
  else if c = [46, 46] then stack.dropLast
  else stack ++ [c]

/-- Surviving components of a path. -/
def survivors (p : List UInt8) : List (List UInt8) := (splitSlash p).foldl pushComp []

/-- Dot-segment removal.  A trailing slash is kept when anything survives. -/
def normalize (p : List UInt8) : List UInt8 :=
  joinSlash (survivors p) ++
    (if survivors p ≠ [] ∧ p.getLast? = some 47 then [47] else [])

/-- A path that stays below its root: it does not start with a slash, no component is "." or
"..", and no component is empty except possibly the last (i.e. a trailing slash). -/
def StaysBelow (p : List UInt8) : Prop :=
  p.head? ≠ some 47 ∧
  ([46] : List UInt8) ∉ splitSlash p ∧ ([46, 46] : List UInt8) ∉ splitSlash p ∧
  ([] : List UInt8) ∉ (splitSlash p).dropLast

end Gmid.Spec

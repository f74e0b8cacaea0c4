import Verif.Model.Rand

/-!
# Specification: who can compute which random bytes
-/

set_option autoImplicit false

namespace Gmid.Spec

open Gmid

/-- the pids that a history gives to new processes -/
def forkPids : List REvent → List Nat
  | [] => []
  | .fork _ _ pid :: r => pid :: forkPids r
  | _ :: r => forkPids r

/-- the names that a history gives to new processes -/
def forkNames : List REvent → List Nat
  | [] => []
  | .fork _ q _ :: r => q :: forkNames r
  | _ :: r => forkNames r

/-- how many bytes the process `p` asks for -/
def asked (p : Nat) : REvent → Nat
  | .bytes q len => if q = p then len else 0
  | .number q => if q = p then 4 else 0
  | _ => 0

/-- all that a process keeps of its generator that says something about what it gives: the buffer, and the key of the cipher -/
def memoryOf (s : RState0) : List Cell := s.buf ++ s.key

/-- what somebody can compute who knows the bytes `m`: the keystream of a key (32 bytes) and iv (8 bytes), and exclusive ors; an exclusive or
can be undone by who knows one of the two -/
inductive Known (m : List Cell) : Cell → Prop where
  | mem (c : Cell) : c ∈ m → Known m c
  | ks (k : List Cell) (i : Nat) : k.length = 40 → (∀ c ∈ k, Known m c) → Known m (.ks k i)
  | xor (a b : Cell) : Known m a → Known m b → Known m (.xor a b)
  | left (a b : Cell) : Known m (.xor a b) → Known m b → Known m a
  | right (a b : Cell) : Known m (.xor a b) → Known m a → Known m b

end Gmid.Spec

import Verif.Model.LoadFile

/-!
# What loading a file must do
-/

set_option autoImplicit false

namespace Gmid.Spec

/-- the system keeps its promises: a new descriptor is a new one, malloc(3) gives as much as was asked for, read(2) no more than that -/
structure SysOk (s : LSys) (w : LWorld) : Prop where
  fd : ∀ fd, s.opened = some fd → fd ∉ w.fds
  mem : ∀ n g, s.mem n = some g → g.length = n
  read : ∀ n d, s.read n = some d → d.length ≤ n
  fresh : w.live w.next = none

/-- the file can be opened and read, its contents are `f`, and nobody changes it meanwhile -/
structure Contents (s : LSys) (f : Bytes) : Prop where
  opened : s.opened ≠ none
  stat : s.stat = some (f.length : Int)
  mem : s.mem f.length ≠ none
  read : ∀ n, s.read n = some (f.take n)

/-- only zeros -/
def Erased (b : Bytes) : Prop := ∀ x ∈ b, x = 0

/-- nothing is left of what was done: the same blocks, the same descriptors, and whatever was freed had been erased -/
def NothingLeft (w w' : LWorld) : Prop :=
  w'.live = w.live ∧ w'.fds = w.fds ∧ ∃ l, w'.freed = l ++ w.freed ∧ ∀ b ∈ l, Erased b

/-- there is one block more, with `b` in it, and no other difference -/
def OneMore (w w' : LWorld) (p : Nat) (b : Bytes) : Prop :=
  w.live p = none ∧ w'.live p = some b ∧ (∀ q, q ≠ p → w'.live q = w.live q) ∧ w'.fds = w.fds ∧ w'.freed = w.freed

/-- nothing is given back only when the file cannot be opened, there is no memory or read(2) does not give as many bytes as fstat(2) has said, and then nothing is left;
otherwise there is one block more, with what read(2) gave -/
def LoadsFile (s : LSys) (w w' : LWorld) : Option (Nat × Nat) → Prop
  | none => NothingLeft w w' ∧ ¬ ∃ n b, s.opened ≠ none ∧ s.stat = some (Int.ofNat n) ∧ s.mem n ≠ none ∧ s.read n = some b ∧ b.length = n
  | some (p, n) => ∃ b, OneMore w w' p b ∧ b.length = n ∧ s.opened ≠ none ∧ s.stat = some (Int.ofNat n) ∧ s.read n = some b

end Gmid.Spec

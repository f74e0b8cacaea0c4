import Verif.Model.Realloc

/-!
# An array that can be resized, as its owner sees it
-/

set_option autoImplicit false

namespace Gmid.Spec

/-- `bs` cut to `n` bytes, or made `n` bytes long with zeroes -/
def resized (bs : Bytes) (n : Nat) : Bytes := bs.take n ++ List.replicate (n - bs.length) 0

/-- what a successful call on block `p`, holding `b`, leaves: the array is now at `q` and is the old one cut or extended
with zeroes, the other blocks are untouched, and if the array moved the old block was released with zeroes in place of
the array -/
structure Resized (h h' : Heap) (p q : Nat) (b : Bytes) (oldsize newsize : Nat) : Prop where
  now : ∃ b', h'.blk q = some b' ∧ b'.take newsize = resized (b.take oldsize) newsize ∧ newsize ≤ b'.length ∧
    (q = p ∧ b'.length = b.length ∧ b'.drop newsize = List.replicate (oldsize - newsize) 0 ++ b.drop oldsize ∨ q ≠ p ∧ b'.length = newsize)
  rest : ∀ x, x ≠ p → x ≠ q → h'.blk x = h.blk x
  old : (q = p ∧ h'.freed = h.freed) ∨
    (q ≠ p ∧ h.blk q = none ∧ h'.blk p = none ∧ h'.freed = (List.replicate oldsize 0 ++ b.drop oldsize) :: h.freed)

/-- one operation, on the bytes of the array -/
inductive ArrSpec (size : Nat) : ArrOp → Bytes → Bytes → Prop where
  /-- the array is resized; this needs the new size to be one a `size_t` can hold -/
  | resize (al : Alloc) (n : Nat) (bs : Bytes) : n * size < 2 ^ 64 → ArrSpec size (.resize al n) bs (resized bs (n * size))
  /-- or there was no memory and it stays as it was -/
  | failed (al : Alloc) (n : Nat) (bs : Bytes) : ArrSpec size (.resize al n) bs bs
  /-- a write inside the array -/
  | put (off : Nat) (ws bs : Bytes) : off + ws.length ≤ bs.length →
    ArrSpec size (.put off ws) bs (bs.take off ++ ws ++ bs.drop (off + ws.length))
  /-- a write that is not attempted -/
  | skip (off : Nat) (ws bs : Bytes) : bs.length < off + ws.length ∨ bs = [] → ArrSpec size (.put off ws) bs bs

/-- a sequence of operations -/
inductive ArrHistory (size : Nat) : List ArrOp → Bytes → Bytes → Prop where
  | nil (bs : Bytes) : ArrHistory size [] bs bs
  | cons (op : ArrOp) (ops : List ArrOp) (bs bs' bs'' : Bytes) : ArrSpec size op bs bs' → ArrHistory size ops bs' bs'' →
    ArrHistory size (op :: ops) bs bs''

end Gmid.Spec

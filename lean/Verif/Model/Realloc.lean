import Verif.Model.Basic

/-!
# Model of compat/recallocarray.c, compat/reallocarray.c and compat/freezero.c

The heap: which blocks are allocated and what they hold, and what each released block held when it was
released.  `none` is undefined behaviour: reading or writing outside a block, using or releasing a
block that is not allocated.  `size_t` has 64 bits.
-/

set_option autoImplicit false

namespace Gmid

/-- the heap -/
structure Heap where
  /-- the blocks that are allocated -/
  blk : Nat → Option Bytes
  /-- what the released ones held, the last one first -/
  freed : List Bytes

/-- what the allocator answers: an address (`none`: out of memory), and what a new block happens to hold -/
structure Alloc where
  addr : Option Nat
  junk : Nat → UInt8

/-- SIZE_MAX + 1 -/
def wordSize : Nat := 2 ^ 64

/-- read `len` bytes at `off` in block `p` -/
def Heap.read (h : Heap) (p off len : Nat) : Option Bytes :=
  match h.blk p with
  | some b => if off + len ≤ b.length then some ((b.drop off).take len) else none
  | none => none

/-- write at `off` in block `p` -/
def Heap.write (h : Heap) (p off : Nat) (bs : Bytes) : Option Heap :=
  match h.blk p with
  | some b => if off + bs.length ≤ b.length then
      some { h with blk := fun a => if a = p then some (b.take off ++ bs ++ b.drop (off + bs.length)) else h.blk a } else none
  | none => none

/-- free(3) -/
def Heap.free (h : Heap) (p : Nat) : Option Heap :=
  match h.blk p with
  | some b => some { blk := fun a => if a = p then none else h.blk a, freed := b :: h.freed }
  | none => none

/-- malloc(3): an address in use is never handed out -/
def Heap.malloc (h : Heap) (al : Alloc) (sz : Nat) : Heap × Option Nat :=
  match al.addr with
  | some a => if (h.blk a).isSome then (h, none) else
      ({ h with blk := fun x => if x = a then some ((List.range sz).map al.junk) else h.blk x }, some a)
  | none => (h, none)

/-- calloc(3): zeroes, and nothing when the size does not fit -/
def Heap.calloc (h : Heap) (al : Alloc) (n size : Nat) : Heap × Option Nat :=
  if n * size < wordSize then h.malloc { al with junk := fun _ => 0 } (n * size) else (h, none)

/-- compat/reallocarray.c:34-35, compat/recallocarray.c:49-50 and 56-57: whether the product is refused -/
def mulOverflows (n size : Nat) : Bool :=
  (decide (n ≥ 1 <<< 32) || decide (size ≥ 1 <<< 32)) && decide (n > 0) && decide ((wordSize - 1) / n < size)

/-- compat/recallocarray.c:76-89, a new block; `oldsize` and `newsize` are the sizes in bytes -/
def recallocMove (h : Heap) (al : Alloc) (ptr oldsize newsize : Nat) : Option (Heap × Option Nat) :=
  match h.malloc al newsize with
  | (h, none) => some (h, none)
  | (h, some q) =>
    (if newsize > oldsize then
        (h.read ptr 0 oldsize).bind fun b => (h.write q 0 b).bind fun h => h.write q oldsize (List.replicate (newsize - oldsize) 0)
      else (h.read ptr 0 newsize).bind fun b => h.write q 0 b).bind fun h =>
    (h.write ptr 0 (List.replicate oldsize 0)).bind fun h =>
    (h.free ptr).map fun h => (h, some q)

/-- compat/recallocarray.c:40-90; the new pointer, `none` for NULL -/
def recallocarray (h : Heap) (al : Alloc) (ptr : Option Nat) (oldn newn size : Nat) : Option (Heap × Option Nat) :=
  match ptr with
  | none => some (h.calloc al newn size)
  | some p =>
    if mulOverflows newn size then some (h, none)
    else if mulOverflows oldn size then some (h, none)
    else
      let newsize := newn * size % wordSize
      let oldsize := oldn * size % wordSize
      if newsize ≤ oldsize ∧ oldsize - newsize < oldsize / 2 ∧ oldsize - newsize < 1 <<< 12 then
        (h.write p newsize (List.replicate (oldsize - newsize) 0)).map fun h => (h, some p)
      else recallocMove h al p oldsize newsize

/-- realloc(3), from the C standard: the block moves, or grows in place when the address is the same, and keeps
what fits of its contents; on failure nothing changes -/
def Heap.realloc (h : Heap) (al : Alloc) (ptr : Option Nat) (sz : Nat) : Option (Heap × Option Nat) :=
  match ptr with
  | none => some (h.malloc al sz)
  | some p =>
    match h.blk p, al.addr with
    | none, _ => none
    | some _, none => some (h, none)
    | some b, some a =>
      if a ≠ p ∧ (h.blk a).isSome then some (h, none)
      else
        let nb := b.take sz ++ ((List.range (sz - b.length)).map al.junk)
        some ({ blk := fun x => if x = a then some nb else if x = p then none else h.blk x, freed := if a = p then h.freed else b :: h.freed }, some a)

/-- compat/reallocarray.c:31-40 -/
def reallocarray (h : Heap) (al : Alloc) (ptr : Option Nat) (n size : Nat) : Option (Heap × Option Nat) :=
  if mulOverflows n size then some (h, none) else h.realloc al ptr (size * n % wordSize)

/-- compat/freezero.c:22-30 -/
def freezero (h : Heap) (ptr : Option Nat) (len : Nat) : Option Heap :=
  match ptr with
  | none => some h
  | some p => (h.write p 0 (List.replicate len 0)).bind fun h => h.free p

/-! ## a program that keeps an array this way -/

/-- what the owner of an array of elements of `size` bytes does with it -/
inductive ArrOp where
  /-- ask for `n` elements; the old array is kept when that fails (mime.c:42-50) -/
  | resize (al : Alloc) (n : Nat)
  /-- write into the array -/
  | put (off : Nat) (bs : Bytes)

/-- the array: pointer and number of elements -/
structure Arr where
  ptr : Option Nat
  n : Nat

/-- mime.c:43-50 for any new capacity; the owner writes within its elements only -/
def arrStep (size : Nat) (h : Heap) (a : Arr) : ArrOp → Option (Heap × Arr)
  | .resize al n =>
    match recallocarray h al a.ptr a.n n size with
    | none => none
    | some (h, none) => some (h, a)
    | some (h, some q) => some (h, { ptr := some q, n := n })
  | .put off bs =>
    match a.ptr with
    | none => some (h, a)
    | some p => if off + bs.length ≤ a.n * size then (h.write p off bs).map fun h => (h, a) else some (h, a)

/-- a sequence of these -/
def arrRun (size : Nat) : Heap → Arr → List ArrOp → Option (Heap × Arr)
  | h, a, [] => some (h, a)
  | h, a, op :: ops =>
    match arrStep size h a op with
    | none => none
    | some (h, a) => arrRun size h a ops

end Gmid

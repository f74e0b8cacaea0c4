import Verif.Model.Proc

/-!
# Model of message buffers (compat/imsg-buffer.c), at the level of memory

A buffer has `size` bytes of memory, `none` when nothing was allocated, and two positions in it.  Positions and lengths are 64 bits.  The attached descriptor
is not part of this model (it is in Model/Imsg.lean), only the mark of buffers that are not on the heap.
-/

set_option autoImplicit false

namespace Gmid

/-- 2^64, one more than SIZE_MAX -/
abbrev sizeMod : Nat := 18446744073709551616

/-- compat/imsg.h:31-39, struct ibuf; `mem` is `buf` and `size` its length, `stack` is IBUF_FD_MARK_ON_STACK -/
structure Ibuf where
  mem : Option Bytes
  max : Nat
  wpos : Nat := 0
  rpos : Nat := 0
  stack : Bool := false
  deriving Repr, DecidableEq

/-- the size field -/
def Ibuf.size (b : Ibuf) : Nat := (b.mem.getD []).length

/-- the bytes `off ≤ i < off + n` of the memory; outside of it is undefined -/
def Ibuf.rd (b : Ibuf) (off n : Nat) : Res Bytes :=
  if off + n ≤ b.size then .ok (((b.mem.getD []).drop off).take n) else .ub

/-- memcpy to the memory at `off`; outside of it is undefined -/
def Ibuf.wr (b : Ibuf) (off : Nat) (d : Bytes) : Res Ibuf :=
  if off + d.length ≤ b.size then .ok { b with mem := b.mem.map fun m => m.take off ++ d ++ m.drop (off + d.length) } else .ub

/-- what a call returns -/
inductive IbufOut where
  | done
  | failed
  | bytes (b : Bytes)
  | num (n : Nat)
  deriving Repr, DecidableEq

/-- compat/imsg-buffer.c:55-72, ibuf_open, when there is memory -/
def ibufOpen (len : Nat) : Ibuf := { mem := if len > 0 then some (List.replicate len 0) else none, max := len }

/-- compat/imsg-buffer.c:74-97, ibuf_dynamic, when there is memory -/
def ibufDynamic (len max : Nat) : Option Ibuf :=
  if max = 0 ∨ max < len then none else some { mem := if len > 0 then some (List.replicate len 0) else none, max := max }

/-- compat/imsg-buffer.c:389-396, ibuf_from_buffer -/
def ibufFromBuffer (d : Bytes) : Ibuf := { mem := some d, max := 0, wpos := d.length, stack := true }

/-- compat/imsg-buffer.c:350-354, ibuf_size -/
def ibufSize (b : Ibuf) : Nat := (b.wpos + sizeMod - b.rpos) % sizeMod

/-- compat/imsg-buffer.c:356-363, ibuf_left -/
def ibufLeft (b : Ibuf) : Nat := if b.stack then 0 else (b.max + sizeMod - b.wpos) % sizeMod

/-- compat/imsg-buffer.c:99-132, ibuf_reserve: the offset it returns, `none` for NULL.  `ok` is whether realloc succeeds.  The pointer is NULL as well when
nothing was ever allocated. -/
def ibufReserve (ok : Bool) (b : Ibuf) (len : Nat) : Ibuf × Option Nat :=
  if len > sizeMod - 1 - b.wpos then (b, none)
  else if b.stack then (b, none)
  else
    if b.wpos + len > b.size then
      if b.wpos + len > b.max then (b, none)
      else if !ok then (b, none)
      else
        ({ b with mem := some ((b.mem.getD []) ++ List.replicate (b.wpos + len - b.size) 0), wpos := b.wpos + len }, some b.wpos)
    else ({ b with wpos := b.wpos + len }, b.mem.map fun _ => b.wpos)

/-- compat/imsg-buffer.c:134-144, ibuf_add -/
def ibufAdd (ok : Bool) (b : Ibuf) (d : Bytes) : Res (Ibuf × IbufOut) :=
  match ibufReserve ok b d.length with
  | (b, none) => .ok (b, .failed)
  | (b, some off) =>
    match b.wr off d with
    | .ok b => .ok (b, .done)
    | .err => .err
    | .ub => .ub

/-- `n` bytes of a number, the last first -/
def leBytes : Nat → Nat → Bytes
  | 0, _ => []
  | n + 1, v => UInt8.ofNat (v % 256) :: leBytes n (v / 256)

/-- the number whose bytes these are, the last first -/
def leNum : Bytes → Nat
  | [] => 0
  | c :: r => c.toNat + 256 * leNum r

/-- the bytes of a number of `w` bytes in memory: `net` is network byte order (htobe16 and the like), the host is little endian -/
def numBytes (net : Bool) (w v : Nat) : Bytes := if net then (leBytes w v).reverse else leBytes w v

/-- the number in memory -/
def numOf (net : Bool) (d : Bytes) : Nat := leNum (if net then d.reverse else d)

/-- compat/imsg-buffer.c:152-226, ibuf_add_n8 to ibuf_add_h64: `w` is 1, 2, 4 or 8 -/
def ibufAddNum (ok : Bool) (b : Ibuf) (net : Bool) (w v : Nat) : Res (Ibuf × IbufOut) :=
  if v > 256 ^ w - 1 then .ok (b, .failed) else ibufAdd ok b (numBytes net w v)

/-- compat/imsg-buffer.c:228-237, ibuf_add_zero -/
def ibufAddZero (ok : Bool) (b : Ibuf) (len : Nat) : Res (Ibuf × IbufOut) :=
  match ibufReserve ok b len with
  | (b, none) => .ok (b, .failed)
  | (b, some off) =>
    match b.wr off (List.replicate len 0) with
    | .ok b => .ok (b, .done)
    | .err => .err
    | .ub => .ub

/-- compat/imsg-buffer.c:239-250, ibuf_seek: the offset it returns, `none` for NULL -/
def ibufSeek (b : Ibuf) (pos len : Nat) : Option Nat :=
  if ibufSize b < pos ∨ sizeMod - 1 - pos < len ∨ ibufSize b < pos + len then none else b.mem.map fun _ => b.rpos + pos

/-- compat/imsg-buffer.c:257-261, the rest of ibuf_set -/
def ibufPut (b : Ibuf) (d : Bytes) : Option Nat → Res (Ibuf × IbufOut)
  | none => .ok (b, .failed)
  | some off =>
    match b.wr off d with
    | .ok b => .ok (b, .done)
    | .err => .err
    | .ub => .ub

/-- compat/imsg-buffer.c:252-262, ibuf_set -/
def ibufSet (b : Ibuf) (pos : Nat) (d : Bytes) : Res (Ibuf × IbufOut) := ibufPut b d (ibufSeek b pos d.length)

/-- compat/imsg-buffer.c:264-342, ibuf_set_n8 to ibuf_set_h64 -/
def ibufSetNum (b : Ibuf) (pos : Nat) (net : Bool) (w v : Nat) : Res (Ibuf × IbufOut) :=
  if v > 256 ^ w - 1 then .ok (b, .failed) else ibufSet b pos (numBytes net w v)

/-- compat/imsg-buffer.c:365-378, ibuf_truncate -/
def ibufTruncate (ok : Bool) (b : Ibuf) (len : Nat) : Res (Ibuf × IbufOut) :=
  if ibufSize b ≥ len then .ok ({ b with wpos := b.rpos + len }, .done)
  else if b.stack then .ok (b, .failed)
  else ibufAddZero ok b (len - ibufSize b)

/-- compat/imsg-buffer.c:380-384, ibuf_rewind -/
def ibufRewind (b : Ibuf) : Ibuf := { b with rpos := 0 }

/-- compat/imsg-buffer.c:404-415, ibuf_get, and 417-428, ibuf_get_ibuf, whose result is a buffer of these bytes -/
def ibufGet (b : Ibuf) (len : Nat) : Res (Ibuf × IbufOut) :=
  if ibufSize b < len then .ok (b, .failed)
  else
    match b.rd b.rpos len with
    | .ok d => .ok ({ b with rpos := b.rpos + len }, .bytes d)
    | .err => .err
    | .ub => .ub

/-- what was read, as a number -/
def IbufOut.asNum (net : Bool) : IbufOut → IbufOut
  | .bytes d => .num (numOf net d)
  | o => o

/-- compat/imsg-buffer.c:430-482, ibuf_get_h16 to ibuf_get_n64 -/
def ibufGetNum (b : Ibuf) (net : Bool) (w : Nat) : Res (Ibuf × IbufOut) := (ibufGet b w).bind fun x => .ok (x.1, x.2.asNum net)

/-- compat/imsg-buffer.c:484-499, ibuf_get_string -/
def ibufGetString (ok : Bool) (b : Ibuf) (len : Nat) : Res (Ibuf × IbufOut) :=
  if ibufSize b < len then .ok (b, .failed)
  else
    match b.rd b.rpos len with
    | .ok d => if ok then .ok ({ b with rpos := b.rpos + len }, .bytes (d.takeWhile (· != 0))) else .ok (b, .failed)
    | .err => .err
    | .ub => .ub

/-- compat/imsg-buffer.c:501-511, ibuf_skip -/
def ibufSkip (b : Ibuf) (len : Nat) : Ibuf × IbufOut :=
  if ibufSize b < len then (b, .failed) else ({ b with rpos := b.rpos + len }, .done)

/-- the calls -/
inductive IbufOp where
  | add (d : Bytes)
  | addNum (net : Bool) (w v : Nat)
  | addZero (len : Nat)
  | set (pos : Nat) (d : Bytes)
  | setNum (pos : Nat) (net : Bool) (w v : Nat)
  | truncate (len : Nat)
  | rewind
  | get (len : Nat)
  | getNum (net : Bool) (w : Nat)
  | getString (len : Nat)
  | skip (len : Nat)
  | size
  | left
  deriving Repr, DecidableEq

def ibufStep (ok : Bool) (b : Ibuf) : IbufOp → Res (Ibuf × IbufOut)
  | .add d => ibufAdd ok b d
  | .addNum net w v => ibufAddNum ok b net w v
  | .addZero len => ibufAddZero ok b len
  | .set pos d => ibufSet b pos d
  | .setNum pos net w v => ibufSetNum b pos net w v
  | .truncate len => ibufTruncate ok b len
  | .rewind => .ok (ibufRewind b, .done)
  | .get len => ibufGet b len
  | .getNum net w => ibufGetNum b net w
  | .getString len => ibufGetString ok b len
  | .skip len => .ok (ibufSkip b len)
  | .size => .ok (b, .num (ibufSize b))
  | .left => .ok (b, .num (ibufLeft b))

/-- a sequence of calls, each with whether the allocator gives it memory -/
def ibufRun (b : Ibuf) : List (Bool × IbufOp) → Res (Ibuf × List IbufOut)
  | [] => .ok (b, [])
  | (ok, op) :: r =>
    match ibufStep ok b op with
    | .ok (b, o) =>
      match ibufRun b r with
      | .ok (b, os) => .ok (b, o :: os)
      | .err => .err
      | .ub => .ub
    | .err => .err
    | .ub => .ub

end Gmid

import Verif.Model.Basic

/-!
# Model of utf8.c
-/

set_option autoImplicit false

namespace Gmid

/-- utf8.c:33-48, the table `utf8d`: 256 character classes followed by 9 rows of 16 transitions. -/
def utf8d : List Nat :=
  List.replicate 128 0 ++                                   -- 00..7f  (lines 34-37)
  List.replicate 16 1 ++ List.replicate 16 9 ++             -- 80..9f  (line 38)
  List.replicate 32 7 ++                                    -- a0..bf  (line 39)
  [8,8] ++ List.replicate 30 2 ++                           -- c0..df  (line 40)
  [0xa,0x3,0x3,0x3,0x3,0x3,0x3,0x3,0x3,0x3,0x3,0x3,0x3,0x4,0x3,0x3] ++ -- e0..ef
  [0xb,0x6,0x6,0x6,0x5,0x8,0x8,0x8,0x8,0x8,0x8,0x8,0x8,0x8,0x8,0x8] ++ -- f0..ff
  [0x0,0x1,0x2,0x3,0x5,0x8,0x7,0x1,0x1,0x1,0x4,0x6,0x1,0x1,0x1,0x1] ++ -- s0
  [1,1,1,1,1,1,1,1,1,1,1,1,1,1,1,1,1,0,1,1,1,1,1,0,1,0,1,1,1,1,1,1] ++ -- s1..s2
  [1,2,1,1,1,1,1,2,1,2,1,1,1,1,1,1,1,1,1,1,1,1,1,2,1,1,1,1,1,1,1,1] ++ -- s3..s4
  [1,2,1,1,1,1,1,1,1,2,1,1,1,1,1,1,1,1,1,1,1,1,1,3,1,3,1,1,1,1,1,1] ++ -- s5..s6
  [1,3,1,1,1,1,1,3,1,3,1,1,1,1,1,1,1,3,1,1,1,1,1,1,1,1,1,1,1,1,1,1]    -- s7..s8

/-- utf8.c:51-52: `type = utf8d[byte]`.  The index is always in range, see
`utf8_table_in_bounds`. -/
def utf8Type (byte : UInt8) : Nat := utf8d.getD byte.toNat 0

/-- utf8.c:58: `utf8d[256 + *state*16 + type]`. -/
def utf8Next (state : Nat) (byte : UInt8) : Nat := utf8d.getD (256 + state * 16 + utf8Type byte) 0

/-- utf8.c:54-56: the code point accumulator, a `uint32_t` (hence the `%`). -/
def utf8Cp (state cp : Nat) (byte : UInt8) : Nat :=
  if state ≠ 0 then ((byte.toNat &&& 0x3f) ||| (cp <<< 6)) % 4294967296
  else (0xff >>> utf8Type byte) &&& byte.toNat

/-- utf8.c:50-60, utf8_decode: the new `(state, codep)`. -/
def utf8Decode (state cp : Nat) (byte : UInt8) : Nat × Nat :=
  (utf8Next state byte, utf8Cp state cp byte)

/-- Outcome of `valid_multibyte_utf8`: `no` (returns 0, no error recorded, pointer not moved),
`bad` (returns 0 with `p->err` set), `seq s rest` (returns 1; `s` are the bytes from the initial
position up to and including the one the pointer is left at; the callers then step over it). -/
inductive MB where
  | no
  | bad
  | seq (s rest : Bytes)
  deriving Repr, DecidableEq

/-- utf8.c:68-70, the loop: returns the final `(state, cp)`, the bytes consumed including the one
on which it broke, and what follows.  `done` accumulates consumed bytes in reverse. -/
def utf8Loop : Nat → Nat → Bytes → Bytes → Nat × Nat × Bytes × Bytes
  | st, cp, done, [] => (st, cp, done.reverse, [])
  | st, cp, done, b :: rest =>
    let r := utf8Decode st cp b
    if r.1 = 0 then (r.1, r.2, (b :: done).reverse, rest)
    else utf8Loop r.1 r.2 (b :: done) rest

/-- utf8.c:63-80, valid_multibyte_utf8 -/
def validMultibyte (s : Bytes) : MB :=
  let r := utf8Loop 0 0 [] s
  if r.1 ≠ 0 || r.2.1 ≤ 0x7F then
    if r.1 ≠ 0 then .bad else .no
  else .seq r.2.2.1 r.2.2.2

/-- utf8.c:82-97, utf8_nth: the loop counts completed characters; the result is the offset of the
returned pointer, or `none` for NULL. `i` counts characters, `off` bytes. -/
def utf8NthLoop (n : Nat) : Nat → Nat → Nat → Nat → Bytes → Option Nat
  | st, cp, i, off, s =>
    match s with
    | [] => if st ≠ 0 then none else if i = n then some off else none
    | b :: rest =>
      if i < n then
        let r := utf8Decode st cp b
        utf8NthLoop n r.1 r.2 (if r.1 = 0 then i + 1 else i) (off + 1) rest
      else if st ≠ 0 then none else if i = n then some off else none

def utf8Nth (s : Bytes) (n : Nat) : Option Nat := utf8NthLoop n 0 0 0 0 s

end Gmid

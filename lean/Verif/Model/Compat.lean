import Verif.Model.TwoWay

/-!
# Model of compat/strtonum.c, compat/memmem.c and compat/timingsafe_memcmp.c
-/

set_option autoImplicit false

namespace Gmid

/-! ## strtonum -/

/-- isspace(3), C locale -/
def isSpace (c : UInt8) : Bool := c = 32 || (9 ≤ c && c ≤ 13)

/-- the digits strtoll(3) reads in base 10: the value (unbounded), whether there was a digit, and
the rest of the string -/
def scanDigits : Nat → Bool → Bytes → Nat × Bool × Bytes
  | acc, seen, [] => (acc, seen, [])
  | acc, seen, c :: r => if isDigit c then scanDigits (acc * 10 + (c.toNat - 48)) true r else (acc, seen, c :: r)

/-- the optional sign: whether it is a minus, and the rest -/
def signOf : Bytes → Bool × Bytes
  | [] => (false, [])
  | c :: r => if c = 45 then (true, r) else if c = 43 then (false, r) else (false, c :: r)

/-- strtoll(3) in base 10, a libc function: blanks, an optional sign, digits.  The result, whether
ERANGE was set, and the rest of the string; `none` when nothing was converted. -/
def strtoll (s : Bytes) : Option (Int × Bool × Bytes) :=
  let p := signOf (s.dropWhile isSpace)
  let q := scanDigits 0 false p.2
  if q.2.1 = false then none
  else
    let x : Int := if p.1 then - (q.1 : Int) else q.1
    if x < -9223372036854775808 then some (-9223372036854775808, true, q.2.2)
    else if x > 9223372036854775807 then some (9223372036854775807, true, q.2.2)
    else some (x, false, q.2.2)

/-- the error strings of strtonum -/
inductive NumErr where
  | invalid
  | tooSmall
  | tooLarge
  deriving Repr, DecidableEq

/-- compat/strtonum.c:29-65 -/
def strtonum (s : Bytes) (minval maxval : Int) : Int × Option NumErr :=
  if minval > maxval then (0, some .invalid)
  else
    match strtoll s with
    | none => (0, some .invalid)
    | some (ll, erange, rest) =>
      if rest ≠ [] then (0, some .invalid)
      else if (ll = -9223372036854775808 && erange) || ll < minval then (0, some .tooSmall)
      else if (ll = 9223372036854775807 && erange) || ll > maxval then (0, some .tooLarge)
      else (ll, none)

/-! ## memmem -/

/-- compat/memmem.c:31-38: `hw` holds the last two bytes, `off` is the offset of the window -/
def twobyteLoop (nw : Nat) : Nat → Nat → Bytes → Option Nat
  | hw, off, [] => if hw = nw then some off else none
  | hw, off, b :: r => if hw = nw then some off else twobyteLoop nw ((hw <<< 8 ||| b.toNat) % 65536) (off + 1) r

/-- compat/memmem.c:40-48 -/
def threebyteLoop (nw : Nat) : Nat → Nat → Bytes → Option Nat
  | hw, off, [] => if hw = nw then some off else none
  | hw, off, b :: r =>
    if hw = nw then some off else threebyteLoop nw (((hw ||| b.toNat) <<< 8) % 4294967296) (off + 1) r

/-- compat/memmem.c:50-58 -/
def fourbyteLoop (nw : Nat) : Nat → Nat → Bytes → Option Nat
  | hw, off, [] => if hw = nw then some off else none
  | hw, off, b :: r =>
    if hw = nw then some off else fourbyteLoop nw ((hw <<< 8 ||| b.toNat) % 4294967296) (off + 1) r

/-- memchr(3): the offset of the first such byte -/
def memchr : Bytes → UInt8 → Option Nat
  | [], _ => none
  | b :: r, c => if b = c then some 0 else (memchr r c).map (· + 1)

/-- compat/memmem.c:164-185, memmem: the offset of the result.  (Shifting an unsigned char of 128 or more
by 24 overflows an int; as everywhere, taken modulo 2^32.)  Outer `none`: undefined behaviour. -/
def memmem (h n : Bytes) : Option (Option Nat) :=
  if n.length = 0 then some (some 0)
  else if h.length < n.length then some none
  else
    match memchr h (hd n) with
    | none => some none
    | some o =>
      if n.length = 1 then some (some o)
      else
        let h := h.drop o
        if h.length < n.length then some none
        else
          match n, h with
          | [n0, n1], h0 :: h1 :: r =>
            some ((twobyteLoop (n0.toNat <<< 8 ||| n1.toNat) (h0.toNat <<< 8 ||| h1.toNat) 0 r).map (· + o))
          | [n0, n1, n2], h0 :: h1 :: h2 :: r =>
            some ((threebyteLoop (n0.toNat <<< 24 ||| n1.toNat <<< 16 ||| n2.toNat <<< 8)
              (h0.toNat <<< 24 ||| h1.toNat <<< 16 ||| h2.toNat <<< 8) 0 r).map (· + o))
          | [n0, n1, n2, n3], h0 :: h1 :: h2 :: h3 :: r =>
            some ((fourbyteLoop (n0.toNat <<< 24 ||| n1.toNat <<< 16 ||| n2.toNat <<< 8 ||| n3.toNat)
              (h0.toNat <<< 24 ||| h1.toNat <<< 16 ||| h2.toNat <<< 8 ||| h3.toNat) 0 r).map (· + o))
          | _ :: _ :: _ :: _ :: _ :: _, h => (twoway h n).map (fun r => r.map (· + o))
          | _, _ => none

/-! ## timingsafe_memcmp -/

/-- compat/timingsafe_memcmp.c:30-46, the loop: `int`s are 32 bit words, `>>` of a negative value is
arithmetic.  The last component lists the pairs of bytes read. -/
def tsLoop : BitVec 32 → BitVec 32 → List (UInt8 × UInt8) → BitVec 32 × List (UInt8 × UInt8)
  | res, _, [] => (res, [])
  | res, done, (p1, p2) :: r =>
    let lt := (BitVec.ofNat 32 p1.toNat - BitVec.ofNat 32 p2.toNat).sshiftRight 8
    let gt := (BitVec.ofNat 32 p2.toNat - BitVec.ofNat 32 p1.toNat).sshiftRight 8
    let cmp := lt - gt
    let q := tsLoop (res ||| (cmp &&& ~~~done)) (done ||| (lt ||| gt)) r
    (q.1, (p1, p2) :: q.2)

/-- compat/timingsafe_memcmp.c:24-49, on two buffers of `len` bytes: the result and the accesses -/
def timingsafeMemcmp (b1 b2 : Bytes) : BitVec 32 × List (UInt8 × UInt8) := tsLoop 0 0 (b1.zip b2)

end Gmid

import Verif.Model.Utf8
import Verif.Model.CStr

/-!
# Model of puny.c

The output buffer is a memory block; the pointer `out` and the size `len` always describe the tail
of that block, so the functions below work on that tail.  `char` is signed and `int` has 32 bits,
`size_t` 64 (x86-64, where the conversion of an out-of-range value to int is reduction modulo 2^32).
-/

set_option autoImplicit false

namespace Gmid

/-- Outcome of the decoder: a result, a reported error, an arithmetic operation C leaves undefined
(signed overflow, division by zero), or a memory access outside of the buffer. -/
inductive PRes (α : Type) where
  | ok (a : α)
  | err
  | arith
  | mem
  deriving Repr, DecidableEq

/-- the conversion of an unsigned value to int -/
def toInt32 (n : Nat) : Int := let m := n % 4294967296; if m < 2147483648 then m else (m : Int) - 4294967296

def inInt (x : Int) : Bool := -2147483648 ≤ x && x < 2147483648

/-- puny.c:42-45, the loop of adapt, which only runs for a positive delta; every round divides by 35,
so 8 rounds are more than a 32 bit value needs (`adaptLoop_done`). -/
def adaptLoop : Nat → Nat → Nat → Nat × Nat
  | 0, d, k => (d, k)
  | f + 1, d, k => if d > 455 then adaptLoop f (d / 35) (k + 36) else (d, k)

/-- puny.c:31-48, adapt; `none` for undefined arithmetic -/
def adapt (delta : Int) (numpoints : Nat) (firsttime : Bool) : Option Int :=
  let d1 := if firsttime then delta.tdiv 700 else delta.tdiv 2
  let d2 := d1 + d1.tdiv numpoints
  if !inInt d2 then none
  else
    let (d, k) : Int × Nat := if d2 > 455 then
        let r := adaptLoop 8 d2.toNat 0
        (r.1, r.2)
      else (d2, 0)
    if !inInt (36 * d) then none
    else if d + 38 = 0 then none
    else some (k + (36 * d).tdiv (d + 38))

/-- puny.c:77-90, digit_value -/
def digitValue (c : UInt8) : Nat :=
  if isUpper c then c.toNat - 65
  else if isLower c then c.toNat - 97
  else if isDigit c then 26 + c.toNat - 48
  else if c.toNat < 128 then c.toNat else 4294967296 - 256 + c.toNat

/-- utf8.c:82-97, utf8_nth on memory: the offset of the result or `none` for NULL -/
def utf8NthMem (n : Nat) : Nat → Nat → Nat → Nat → Bytes → PRes (Option Nat)
  | _, _, _, _, [] => .mem
  | st, cp, i, off, b :: rest =>
    if b ≠ 0 ∧ i < n then
      let r := utf8Decode st cp b
      utf8NthMem n r.1 r.2 (if r.1 = 0 then i + 1 else i) (off + 1) rest
    else if st ≠ 0 then .ok none else if i = n then .ok (some off) else .ok none

/-- puny.c:123-140, the bytes stored -/
def punyBytes (cp : Nat) : Bytes :=
  if cp ≤ 0x7FF then [UInt8.ofNat (((cp >>> 6) &&& 0x1F) + 0xC0), UInt8.ofNat ((cp &&& 0x3F) + 0x80)]
  else if cp ≤ 0xFFFF then
    [UInt8.ofNat (((cp >>> 12) &&& 0x0F) + 0xE0), UInt8.ofNat (((cp >>> 6) &&& 0x3F) + 0x80),
     UInt8.ofNat ((cp &&& 0x3F) + 0x80)]
  else
    [UInt8.ofNat (((cp >>> 18) &&& 0x07) + 0xF0), UInt8.ofNat (((cp >>> 12) &&& 0x3F) + 0x80),
     UInt8.ofNat (((cp >>> 6) &&& 0x3F) + 0x80), UInt8.ofNat ((cp &&& 0x3F) + 0x80)]

/-- puny.c:92-142, insert; `cp` is the uint32_t passed as an int -/
def punyInsert (m : Bytes) (cp i : Nat) : PRes Bytes :=
  if toInt32 cp ≤ 0x7F then .err
  else if cp > 0x10FFFF then .err
  else
    let l := if cp ≤ 0x7FF then 2 else if cp ≤ 0xFFFF then 3 else 4
    match utf8NthMem i 0 0 0 0 m with
    | .mem => .mem
    | .arith => .arith
    | .err => .err
    | .ok none => .err
    | .ok (some t) =>
      if t + l ≥ m.length then .err
      else if (0 : UInt8) ∉ m.drop t then .mem                     -- strlen(t)
      else
        let k := (cstr (m.drop t)).length
        if t + l + k > m.length then .mem                          -- memmove
        else .ok (m.take t ++ punyBytes cp ++ (m.drop t).take k ++ m.drop (t + l + k))

/-- puny.c:179-206, the inner loop: one delta.  `none`: the label is truncated. -/
def deltaLoop (bias : Nat) : Nat → Nat → Nat → Bytes → Option (Nat × Bytes)
  | _, _, _, [] => none
  | k, i, w, c :: r =>
    let digit := digitValue c
    let i := (i + digit * w % 4294967296) % 18446744073709551616
    let t := if k ≤ bias then 1 else if k ≥ (bias + 26) % 4294967296 then 26 else k - bias
    if digit < t then some (i, r)
    else deltaLoop bias (k + 36) i (w * (36 - t) % 4294967296) r

/-- puny.c:175-217, the main loop of decode; the first argument is the number of bytes left, which
bounds the number of rounds -/
def decodeLoop : Nat → Bytes → Nat → Nat → Nat → Nat → Bytes → PRes Bytes
  | _, m, _, _, _, _, [] => .ok m
  | 0, _, _, _, _, _, _ :: _ => .err                               -- not reached
  | f + 1, m, n, i, bias, np, s =>
    let oldi := i % 4294967296
    match deltaLoop bias 36 i 1 s with
    | none => .err
    | some (i, r) =>
      match adapt (toInt32 (i + 18446744073709551616 - oldi)) (np + 1) (oldi = 0) with
      | none => .arith
      | some b =>
        let bias := (b + 4294967296).toNat % 4294967296
        let n := (n + i / (np + 1)) % 4294967296
        let i := i % (np + 1)
        match punyInsert m n i with
        | .ok m => decodeLoop f m n (i + 1) bias (np + 1) r
        | .err => .err
        | .arith => .arith
        | .mem => .mem

/-- the part before the last '-' and the part after it, if there is one -/
def splitLastDash : Bytes → Option (Bytes × Bytes)
  | [] => none
  | c :: r =>
    match splitLastDash r with
    | some (a, b) => some (c :: a, b)
    | none => if c = c%'-' then some ([], r) else none

/-- puny.c:144-217, decode, with copy_label (puny.c:50-75) -/
def punyDecodeLabel (str m : Bytes) : PRes Bytes :=
  if str.take 4 ≠ b%"xn--" then
    -- strncpy: at most len bytes, padded with NULs
    .ok ((str ++ List.replicate m.length 0).take m.length)
  else
    let str := str.drop 4
    match (match splitLastDash str with
      | some (basic, s) =>
        if str.length > m.length then .err
        else if basic.any (fun c => decide (122 < c.toNat ∧ c.toNat < 128)) then .err
        else if basic.length > m.length then .mem
        else .ok (basic ++ m.drop basic.length, s)
      | none => .ok (m, str) : PRes (Bytes × Bytes)) with
    | .err => .err
    | .arith => .arith
    | .mem => .mem
    | .ok (m, s) =>
      if (0 : UInt8) ∉ m then .mem                                 -- strlen(out)
      else decodeLoop s.length m 128 0 72 (cstr m).length s

/-- end_of_label (puny.c:219-225): the labels of the name -/
def splitDot : Bytes → List Bytes
  | [] => [[]]
  | c :: r =>
    if c = c%'.' then [] :: splitDot r
    else match splitDot r with
      | l :: t => (c :: l) :: t
      | [] => [[c]]                                                -- not reached

/-- puny.c:239-271, the loop of puny_decode: `m` is the rest of the buffer, the result its content
at the end -/
def punyLoop : List Bytes → Bytes → PRes Bytes
  | [], m => .ok m                                                 -- not reached
  | l :: rest, m =>
    if l.length ≥ 64 then .err
    else
      match punyDecodeLabel l m with
      | .err => .err
      | .arith => .arith
      | .mem => .mem
      | .ok m =>
        match rest with
        | [] => .ok m
        | _ =>
          match strlcat m b%"." m.length with
          | none => .mem
          | some (m, k) =>
            if k ≥ m.length then .err
            else if (0 : UInt8) ∉ m then .mem                      -- strlen(out)
            else
              let n := (cstr m).length
              match punyLoop rest (m.drop n) with
              | .ok t => .ok (m.take n ++ t)
              | .err => .err
              | .arith => .arith
              | .mem => .mem

/-- puny.c:226-271, puny_decode into a buffer of `len` bytes: its content on success.  (A NULL name
gives an empty string, see Model/Server.lean.) -/
def punyDecode (len : Nat) (hostname : Bytes) : PRes Bytes := punyLoop (splitDot hostname) (List.replicate len 0)

end Gmid

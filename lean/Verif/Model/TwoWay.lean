import Verif.Model.Basic

/-!
# Model of twoway_memmem, compat/memmem.c

`none` is undefined behaviour: a read outside the needle or the haystack, a read of an entry of
`shift` that was never written, a haystack pointer past the end, a loop that goes on for ever.
Pointers into the haystack are offsets.  `ip`, `jp` and `ms` start at -1 and 0 as `size_t`s; the model
keeps `ip + 1`, `jp + 1` and `ms + 1`.
-/

set_option autoImplicit false

namespace Gmid

/-- compat/memmem.c:63-64 `BITOP(byteset, b, |=)`: the bit set is an array of four 64 bit words -/
def bitSet (ws : List Nat) (b : UInt8) : List Nat :=
  ws.modify (b.toNat / 64) (fun w => w ||| 1 <<< (b.toNat % 64))

/-- compat/memmem.c:63-64 `BITOP(byteset, b, &)`; `none` past the end of the array -/
def bitTest (ws : List Nat) (b : UInt8) : Option Bool :=
  (ws[b.toNat / 64]?).map (fun w => w &&& 1 <<< (b.toNat % 64) != 0)

/-- compat/memmem.c:78-80, filling the two tables, from byte `i` of the needle on; an entry of `shift` that was
never written is `none` -/
def fillTables : Bytes → Nat → List Nat → (UInt8 → Option Nat) → List Nat × (UInt8 → Option Nat)
  | [], _, bs, sh => (bs, sh)
  | c :: r, i, bs, sh => fillTables r (i + 1) (bitSet bs c) (fun x => if x = c then some (i + 1) else sh x)

/-- compat/memmem.c:83-98 and, with `gt` the other way round, 103-118: `a` is `ip + 1`, `b` is `jp + 1`.
The result is `ip + 1` and `p`.  The first argument bounds the number of rounds; running out is `none`. -/
def maxSuffix (gt : UInt8 → UInt8 → Bool) (n : Bytes) : Nat → Nat → Nat → Nat → Nat → Option (Nat × Nat)
  | 0, _, _, _, _ => none
  | fuel + 1, a, b, k, p =>
    if b - 1 + k < n.length then
      match n[a + k - 1]?, n[b - 1 + k]? with
      | some x, some y =>
        if x = y then
          if k = p then maxSuffix gt n fuel a (b + p) 1 p
          else maxSuffix gt n fuel a b (k + 1) p
        else if gt x y then maxSuffix gt n fuel a (b + k) 1 (b + k - a)
        else maxSuffix gt n fuel b (b + 1) 1 1
      | _, _ => none
    else some (a, p)

/-- compat/memmem.c:82-120: the position `ms + 1` where the needle is cut and the period of what follows -/
def cutNeedle (n : Bytes) : Option (Nat × Nat) :=
  match maxSuffix (fun x y => decide (x > y)) n (4 * n.length + 4) 0 1 1 1,
    maxSuffix (fun x y => decide (x < y)) n (4 * n.length + 4) 0 1 1 1 with
  | some (c1, p1), some (c2, p2) => if c2 > c1 then some (c2, p2) else some (c1, p1)
  | _, _ => none

/-- compat/memmem.c:123 `memcmp(n, n+p, ms+1)`: whether it is zero; `none` when it reads past the needle -/
def sameAfter (n : Bytes) (p c : Nat) : Option Bool :=
  if p + c ≤ n.length then some (n.take c == (n.drop p).take c) else none

/-- compat/memmem.c:122-126: `p` and `mem0`.  `MAX(ms, l-ms-1) + 1` is 0 when `ms` is -1. -/
def shiftOf (n : Bytes) (c p : Nat) : Option (Nat × Nat) :=
  match sameAfter n p c with
  | none => none
  | some true => some (p, n.length - p)
  | some false => some (if c = 0 then 0 else max (c - 1) (n.length - c) + 1, 0)

/-- compat/memmem.c:150, the first argument is `l - k` -/
def cmpRight (n h : Bytes) (pos : Nat) : Nat → Nat → Option Nat
  | 0, k => some k
  | d + 1, k =>
    match n[k]?, h[pos + k]? with
    | some x, some y => if x = y then cmpRight n h pos d (k + 1) else some k
    | _, _ => none

/-- compat/memmem.c:157, from the given `k` down -/
def cmpLeft (n h : Bytes) (pos mem : Nat) : Nat → Option Nat
  | 0 => some 0
  | k + 1 =>
    if k + 1 > mem then
      match n[k]?, h[pos + k]? with
      | some x, some y => if x = y then cmpLeft n h pos mem k else some (k + 1)
      | _, _ => none
    else some (k + 1)

/-- compat/memmem.c:135-147, the last byte of the window: `some none` when it fits, `some (some k)` when
the window moves by `k` -/
def lastByte (bs : List Nat) (sh : UInt8 → Option Nat) (l mem : Nat) (b : UInt8) : Option (Option Nat) :=
  match bitTest bs b with
  | none => none
  | some true =>
    match sh b with
    | none => none
    | some s =>
      if l < s then none
      else if l - s ≠ 0 then some (some (if l - s < mem then mem else l - s))
      else some none
  | some false => some (some l)

/-- compat/memmem.c:130-161, the search: `c` is `ms + 1`.  The first argument bounds the number of
rounds; running out is `none`. -/
def twowayLoop (n h : Bytes) (bs : List Nat) (sh : UInt8 → Option Nat) (c p mem0 : Nat) : Nat → Nat → Nat → Option (Option Nat)
  | 0, _, _ => none
  | fuel + 1, pos, mem =>
    if h.length < pos then none
    else if h.length - pos < n.length then some none
    else
      match h[pos + (n.length - 1)]? with
      | none => none
      | some b =>
        match lastByte bs sh n.length mem b with
        | none => none
        | some (some k) => twowayLoop n h bs sh c p mem0 fuel (pos + k) 0
        | some none =>
          match cmpRight n h pos (n.length - max c mem) (max c mem) with
          | none => none
          | some k =>
            if k < n.length then twowayLoop n h bs sh c p mem0 fuel (pos + (k + 1 - c)) 0
            else
              match cmpLeft n h pos mem c with
              | none => none
              | some k =>
                if k ≤ mem then some (some pos)
                else twowayLoop n h bs sh c p mem0 fuel (pos + p) mem0

/-- compat/memmem.c:70-162 -/
def twoway (h n : Bytes) : Option (Option Nat) :=
  let t := fillTables n 0 [0, 0, 0, 0] (fun _ => none)
  match cutNeedle n with
  | none => none
  | some (c, p) =>
    match shiftOf n c p with
    | none => none
    | some (q, mem0) => twowayLoop n h t.1 t.2 c q mem0 (h.length + 2) 0 0

end Gmid

import Verif.Model.Basic

/-!
# Memory-level model of the libc replacements in compat/

A memory block is a `Bytes` of fixed length; `none` is an access outside of it (undefined
behaviour).  Source strings are given as `Bytes` without their NUL.
-/

set_option autoImplicit false

namespace Gmid

/-- store of one byte -/
def wr (m : Bytes) (i : Nat) (b : UInt8) : Option Bytes :=
  if i < m.length then some (m.set i b) else none

/-- compat/strlcpy.c:33-37, the copying loop.  Arguments: `nleft` before the pre-decrement, the
destination block, the offset of `dst`, the remaining source.  Result: block, offset of `dst`,
remaining source (`none` once the NUL has been copied), final `nleft`. -/
def strlcpyLoop : Nat → Bytes → Nat → Bytes → Option (Bytes × Nat × Option Bytes × Nat)
  | 0, m, d, src => some (m, d, some src, 0)       -- not reached: entered with nleft != 0
  | 1, m, d, src => some (m, d, some src, 0)       -- --nleft == 0
  | nleft + 2, m, d, src =>
    match src with
    | [] => (wr m d 0).map fun m' => (m', d + 1, none, nleft + 1)     -- copied the NUL: break
    | c :: src' => (wr m d c).bind fun m' => strlcpyLoop (nleft + 1) m' (d + 1) src'

/-- compat/strlcpy.c:27-50.  `src - osrc - 1` is the length of the source in every case. -/
def strlcpy (m src : Bytes) (dsize : Nat) : Option (Bytes × Nat) :=
  if dsize = 0 then some (m, src.length)
  else
    match strlcpyLoop dsize m 0 src with
    | none => none
    | some (m', d, rest, nleft) =>
      if nleft = 0 then
        -- lines 40-45: NUL-terminate, then walk to the end of src
        (wr m' d 0).map fun m'' =>
          (m'', (src.length - (rest.getD []).length) + (rest.getD []).length)
      else some (m', src.length)

/-- compat/strlcat.c:38-40: the length of the string in `dst`, not looking past `n` bytes. -/
def strnlenMem : Nat → Bytes → Nat → Option Nat
  | 0, _, d => some d
  | n + 1, m, d =>
    match m[d]? with
    | none => none
    | some c => if c ≠ 0 then strnlenMem n m (d + 1) else some d

/-- compat/strlcat.c:45-52: the copying loop; `n` bytes of room (NUL excluded). -/
def strlcatLoop : Bytes → Nat → Bytes → Nat → Option (Bytes × Nat)
  | m, d, [], _ => some (m, d)
  | m, d, c :: src, n =>
    if n ≠ 0 then (wr m d c).bind fun m' => strlcatLoop m' (d + 1) src (n - 1)
    else strlcatLoop m d src n

/-- compat/strlcat.c:29-55 -/
def strlcat (m src : Bytes) (dsize : Nat) : Option (Bytes × Nat) :=
  match strnlenMem dsize m 0 with
  | none => none
  | some dlen =>
    let n := dsize - dlen
    if n = 0 then some (m, dlen + src.length)
    else
      match strlcatLoop m dlen src (n - 1) with
      | none => none
      | some (m', d) => (wr m' d 0).map fun m'' => (m'', dlen + src.length)

end Gmid

import Verif.Model.Utf8
import Verif.Model.CStr

/-!
# Model of iri.c

The parser works in place on the request buffer: everything before `p->iri` is final, and
`pct_decode` shifts only what follows.  The scanning functions are therefore modelled as functions
from the text at `p->iri` to the text they leave behind them (`out`) and the text at the new
position of `p->iri`.  `path_clean`, where aliasing of the two pointers matters, is modelled on
memory.
-/

set_option autoImplicit false

namespace Gmid

/-- iri.c:23-31 -/
def unreserved (c : UInt8) : Bool :=
  isAlnum c || c == c%'-' || c == c%'.' || c == c%'_' || c == c%'~'

/-- iri.c:33-47 -/
def subDelims (c : UInt8) : Bool :=
  c == c%'!' || c == c%'$' || c == c%'&' || c == c%'\'' || c == c%'(' || c == c%')' ||
  c == c%'*' || c == c%'+' || c == c%',' || c == c%';' || c == c%'='

/-- iri.c:49-63.  The string is `s`; reading past its end yields the NUL, which is not a
hexadecimal digit, so no read goes further than the NUL. -/
def validPctEncString (s : Bytes) : Bool :=
  match s with
  | 37 :: r =>                                          -- '%'
    match r with
    | a :: b :: _ => isXdigit a && isXdigit b && !(a == c%'0' && b == c%'0')
    | _ => false
  | _ => true

/-- iri.c:80-85, pct_decode on a string starting with a valid escape: `sscanf("%2hhx")` stores the
byte over the '%', `memmove` shifts the rest left by two. -/
def pctDecode (s : Bytes) : Bytes :=
  match s with
  | _ :: a :: b :: r => (hexVal a * 16 + hexVal b) :: r
  | _ => s

/-- Result of one of the "element" parsers used in the scanning loops' conditions:
`no` = returned 0, nothing recorded; `bad` = returned 0 with `p->err` set; `yes out rest` =
returned 1, and after the loop's `p->iri++` the bytes `out` are behind the pointer. -/
inductive El where
  | no
  | bad
  | yes (out rest : Bytes)
  deriving Repr, DecidableEq

/-- iri.c:65-78, valid_pct_encoded (query): checks but does not decode; moves by 2, and the caller
by one more. -/
def validPctEncoded (s : Bytes) : El :=
  if hd s ≠ c%'%' then .no
  else if !validPctEncString s then .bad
  else .yes (s.take 3) (s.drop 3)

/-- iri.c:87-105, parse_pct_encoded (host, path): decodes in place. -/
def parsePctEncoded (s : Bytes) : El :=
  if hd s ≠ c%'%' then .no
  else if !validPctEncString s then .bad
  else
    match pctDecode s with
    | [] => .bad                     -- not reached: the escape is there
    | c :: rest => if c = 0 then .bad else .yes [c] rest

/-- One evaluation of a scanning loop's condition (iri.c:209-212, 304-311, 355-361): `cls` is the
disjunction of the character tests, `pct` the percent-encoding parser, then
`valid_multibyte_utf8`.  When `pct` records an error the loop still calls
`valid_multibyte_utf8`, which returns 0 on '%' without touching the error. -/
def scanStep (cls : UInt8 → Bool) (pct : Bytes → El) (s : Bytes) : El :=
  match s with
  | [] => .no
  | c :: rest =>
    if cls c then .yes [c] rest
    else
      match pct s with
      | .yes out rest => .yes out rest
      | .bad => .bad
      | .no =>
        match validMultibyte s with
        | .no => .no
        | .bad => .bad
        | .seq u t => .yes u t

/-- A scanning loop; `post` is the loop body's transformation of the byte at `p->iri`.
`none`: `p->err` was set.  `some (out, rest)`: the text left behind and the text at `p->iri`.
The recursion is on a fuel argument that callers set to the length of the text; every iteration
consumes at least one byte, so it never runs out (see `scan_fuel`). -/
def scan (cls : UInt8 → Bool) (pct : Bytes → El) (post : UInt8 → UInt8) : Nat → Bytes →
    Option (Bytes × Bytes)
  | 0, s => match scanStep cls pct s with
    | .no => some ([], s)
    | .bad => none
    | .yes _ _ => none              -- out of fuel
  | n + 1, s =>
    match scanStep cls pct s with
    | .no => some ([], s)
    | .bad => none
    | .yes out rest =>
      match scan cls pct post n rest with
      | none => none
      | some (o, r) => some (out.map post ++ o, r)

/-- `struct iri` (iri.h).  `query` etc. are the C strings the members point to. -/
structure Iri where
  schema : Bytes
  host : Bytes
  port : Bytes
  portNo : Nat
  path : Bytes
  query : Bytes
  fragment : Bytes
  deriving Repr, DecidableEq

/-- the characters allowed after the first one of a scheme, iri.c:130-133 -/
def schemeChar (c : UInt8) : Bool := isAlnum c || c == c%'+' || c == c%'-' || c == c%'.'

/-- iri.c:107-148, parse_scheme: the lower-cased scheme and the text after "://". -/
def parseScheme (s : Bytes) : Option (Bytes × Bytes) :=
  match s with
  | [] => none
  | c :: r =>
    if !isAlpha c then none
    else
      let sch := (c :: r.takeWhile schemeChar).map toLower
      match r.dropWhile schemeChar with
      | 58 :: 47 :: 47 :: rest => some (sch, rest)          -- "://"
      | _ => none

/-- iri.c:158-164, the digit loop: `i` is the `uint32_t` accumulator.  `none`: too large. -/
def portLoop : Nat → Bytes → Option (Nat × Bytes)
  | i, [] => some (i, [])
  | i, c :: r =>
    if isDigit c then
      let i' := (i * 10 + (c.toNat - 48)) % 4294967296
      if i' > 65535 then none else portLoop i' r
    else some (i, c :: r)

/-- iri.c:151-179, parse_port: port text, number, and the text at the final `p->iri`. -/
def parsePort (s : Bytes) : Option (Bytes × Nat × Bytes) :=
  match portLoop 0 s with
  | none => none
  | some (i, rest) =>
    match rest with
    | [] => some (s, i, [])
    | 47 :: r => some (s.takeWhile isDigit, i, r)              -- '/'
    | _ => none

/-- the character test of the host loop, iri.c:209-210 -/
def hostChar (c : UInt8) : Bool := unreserved c || subDelims c

/-- iri.c:214-215: `if (*p->iri < 0x7F) *p->iri = tolower(*p->iri)`.  `char` is signed, so bytes
>= 0x80 also satisfy the test; `tolower` leaves them alone. -/
def hostPost (c : UInt8) : UInt8 := toLower c

/-- iri.c:223-240, after the host: optional port, then '/', or the end. -/
def parseAuthorityEnd (host s : Bytes) : Option (Bytes × Bytes × Nat × Bytes) :=
  match s with
  | 58 :: r =>                                                  -- ':'
    match parsePort r with
    | none => none
    | some (port, no, rest) => some (host, port, no, rest)
  | 47 :: r => some (host, [], 1965, r)                          -- '/'
  | [] => some (host, [], 1965, [])
  | _ => none

/-- iri.c:182-241, parse_authority: (host, port, port_no, text at `p->iri`).
`isAddr` is the verdict of `getaddrinfo(host, NULL, AI_NUMERICHOST)`, an external function. -/
def parseAuthority (isAddr : Bytes → Bool) (s : Bytes) : Option (Bytes × Bytes × Nat × Bytes) :=
  if hd s = c%'[' then
    let r := s.drop 1
    let h := r.takeWhile (· ≠ c%']')
    match r.dropWhile (· ≠ c%']') with
    | [] => none                                              -- no ']'
    | _ :: rest => if isAddr h then parseAuthorityEnd h rest else none
  else
    match scan hostChar parsePctEncoded hostPost s.length s with
    | none => none
    | some (host, rest) => parseAuthorityEnd host rest

/-! ### path_clean, on memory -/

/-- short-circuit `&&`; `none` is undefined behaviour in the evaluated operand -/
def andC (a : Option Bool) (b : Option Bool) : Option Bool :=
  match a with
  | none => none
  | some false => some false
  | some true => b

/-- short-circuit `||` -/
def orC (a : Option Bool) (b : Option Bool) : Option Bool :=
  match a with
  | none => none
  | some true => some true
  | some false => b

/-- `m[i] == c` -/
def eqAt (m : Bytes) (i : Nat) (c : UInt8) : Option Bool := (m[i]?).map (· == c)

/-- iri.c:278: `while (q > path && *--q != '/') continue;` -/
def popLoop (m : Bytes) : Nat → Option Nat
  | 0 => some 0
  | q + 1 =>
    match m[q]? with
    | none => none
    | some c => if c = c%'/' then some q else popLoop m q

/-- `p` advanced by one if it is at a '/' -/
def skipSlash (m : Bytes) (p : Nat) : Option Nat :=
  (eqAt m p c%'/').map fun b => if b then p + 1 else p

/-- One iteration of the loop of path_clean, iri.c:257-289, on memory `m` with the pointers `p` and
`q` as offsets from `path`.  `none` is an access outside of `m`. -/
def pathCleanStep (m : Bytes) (p q : Nat) : Option (Bytes × Nat × Nat) :=
  let q0 : Option Bool := some (q == 0)
  -- q == path && p[0] == '/'
  match andC q0 (eqAt m p c%'/') with
  | none => none
  | some true => some (m, p + 1, q)
  | some false =>
  -- q == path && p[0] == '.' && p[1] == '.' && (p[2] == '/' || p[2] == '\0')
  match andC q0 (andC (eqAt m p c%'.') (andC (eqAt m (p + 1) c%'.')
      (orC (eqAt m (p + 2) c%'/') (eqAt m (p + 2) 0)))) with
  | none => none
  | some true => (skipSlash m (p + 2)).map fun p' => (m, p', q)
  | some false =>
  -- q == path && p[0] == '.' && (p[1] == '/' || p[1] == '\0')
  match andC q0 (andC (eqAt m p c%'.') (orC (eqAt m (p + 1) c%'/') (eqAt m (p + 1) 0))) with
  | none => none
  | some true => (skipSlash m (p + 1)).map fun p' => (m, p', q)
  | some false =>
  -- p[0] == '/' && p[1] == '/'
  match andC (eqAt m p c%'/') (eqAt m (p + 1) c%'/') with
  | none => none
  | some true => some (m, p + 1, q)
  | some false =>
  -- p[0] == '/' && p[1] == '.' && p[2] == '.' && (p[3] == '/' || p[3] == '\0')
  match andC (eqAt m p c%'/') (andC (eqAt m (p + 1) c%'.') (andC (eqAt m (p + 2) c%'.')
      (orC (eqAt m (p + 3) c%'/') (eqAt m (p + 3) 0)))) with
  | none => none
  | some true =>
    match popLoop m q with
    | none => none
    | some q' =>
      match andC (some (q' == 0)) (eqAt m (p + 3) c%'/') with
      | none => none
      | some true => some (m, p + 4, q')
      | some false => some (m, p + 3, q')
  | some false =>
  -- p[0] == '/' && p[1] == '.' && (p[2] == '/' || p[2] == '\0')
  match andC (eqAt m p c%'/') (andC (eqAt m (p + 1) c%'.')
      (orC (eqAt m (p + 2) c%'/') (eqAt m (p + 2) 0))) with
  | none => none
  | some true => some (m, p + 2, q)
  | some false =>
  -- *q++ = *p++
  match m[p]? with
  | none => none
  | some c => (wr m q c).map fun m' => (m', p + 1, q + 1)

/-- iri.c:256-293, the loop `while (*p)` and the final `*q = '\0'`.  The fuel is the size of the
memory: `p` moves at every iteration. -/
def pathCleanLoop : Nat → Bytes → Nat → Nat → Option Bytes
  | 0, _, _, _ => none
  | n + 1, m, p, q =>
    match m[p]? with
    | none => none
    | some c =>
      if c = 0 then wr m q 0
      else
        match pathCleanStep m p q with
        | none => none
        | some (m', p', q') => pathCleanLoop n m' p' q'

/-- iri.c:250-295, path_clean on a memory block that starts at `path`.  The test of lines 291-292
never fires (the loop ends at a NUL), so the function returns 1. -/
def pathClean (m : Bytes) : Option Bytes := pathCleanLoop (m.length + 1) m 0 0

/-! ### the rest of the parser -/

/-- iri.c:304-309 -/
def queryChar (c : UInt8) : Bool :=
  unreserved c || subDelims c || c == c%'/' || c == c%'?' || c == c%':' || c == c%'@'

/-- iri.c:298-336, parse_query followed by parse_fragment: (query, fragment). -/
def parseQueryFragment (s : Bytes) : Option (Bytes × Bytes) :=
  match scan queryChar validPctEncoded id s.length s with
  | none => none
  | some (q, rest) =>
    match rest with
    | [] => some (q, [])
    | 35 :: f => some (q, f)                                   -- '#'
    | _ => none

/-- iri.c:355-359 -/
def pathChar (c : UInt8) : Bool :=
  unreserved c || subDelims c || c == c%'@' || c == c%':' || c == c%'/'

/-- iri.c:385: path_clean applied to the decoded path; its terminator was stored by line 374 (or is
the end of the text), and `tail` is whatever lies in memory after it. -/
def cleanStr (path tail : Bytes) : Res Bytes :=
  match pathClean (path ++ 0 :: tail) with
  | none => .ub
  | some m => .ok (cstr m)

/-- iri.c:341-391, parse_path: (path, query, fragment). -/
def parsePath (s0 : Bytes) : Res (Bytes × Bytes × Bytes) :=
  let s := s0.dropWhile (· == c%'/')
  match s with
  | [] => .ok ([], [], [])
  | _ =>
    match scan pathChar parsePctEncoded id s.length s with
    | none => .err
    | some (path, rest) =>
      let qf : Option (Bytes × Bytes) :=
        match rest with
        | [] => some ([], [])
        | 35 :: f => some ([], f)                              -- '#'
        | 63 :: r => parseQueryFragment r                        -- '?'
        | _ => none
      match qf with
      | none => .err
      | some (q, f) =>
        match cleanStr path (rest.drop 1) with
        | .ok p => .ok (p, q, f)
        | .err => .err
        | .ub => .ub

/-- iri.c:393-420, parse_iri.  Simplification: only success and the parsed structure are modelled,
not the error message. -/
def parseIri (isAddr : Bytes → Bool) (s : Bytes) : Res Iri :=
  match parseScheme s with
  | none => .err
  | some (schema, r) =>
    match parseAuthority isAddr r with
    | none => .err
    | some (host, port, portNo, r') =>
      match parsePath r' with
      | .ok (path, query, fragment) =>
        .ok { schema, host, port, portNo, path, query, fragment }
      | .err => .err
      | .ub => .ub

/-- `strlcat` in a sequence of calls on the same buffer; the last return value is kept -/
def catM (r : Option (Bytes × Nat)) (src : Bytes) (len : Nat) : Option (Bytes × Nat) :=
  r.bind fun p => strlcat p.1 src len

/-- iri.c:422-447, serialize_iri into the buffer `buf` of `len` bytes: (buffer, success).
Only for IRIs whose members are all non-NULL, as produced by parse_iri (the NULL cases are for the
old cgi process).  `l` is the result of the last strlcat of path or query. -/
def serializeIri (i : Iri) (buf : Bytes) (len : Nat) : Option (Bytes × Bool) :=
  match catM (catM (catM (catM (strlcpy buf i.schema len) b%"://" len) i.host len) b%"/" len)
      i.path len with
  | none => none
  | some (m, l) =>
    if i.query ≠ [] then
      match catM (strlcat m b%"?" len) i.query len with
      | none => none
      | some (m', l') => some (m', decide (l' < len))
    else some (m, decide (l < len))

/-- iri.c:460-464 -/
def encChar (c : UInt8) : Bool := pathChar c

/-- iri.c:473-475: the upper-case hexadecimal digit of a nibble -/
def hexDigit (n : UInt8) : UInt8 := if n ≤ 9 then c%'0' + n else c%'7' + n

/-- iri.c:456-481, the loop of encode_path: buffer, offset `p`, remaining `len`, rest of the path.
Result: buffer and return value 0 (`true`) or -1 (`false`); `none` is a store outside `buf`. -/
def encodeLoop : Bytes → Nat → Nat → Bytes → Option (Bytes × Bool)
  | buf, _, _, [] => some (buf, true)
  | buf, p, len, c :: path =>
    if len = 1 then some (buf, false)
    else if encChar c then (wr buf p c).bind fun b => encodeLoop b (p + 1) (len - 1) path
    else if len < 4 then some (buf, false)
    else
      ((wr buf p c%'%').bind fun b1 =>
        (wr b1 (p + 1) (hexDigit ((c &&& 0xF0) >>> 4))).bind fun b2 =>
          wr b2 (p + 2) (hexDigit (c &&& 0x0F))).bind fun b3 =>
            encodeLoop b3 (p + 3) (len - 3) path

/-- iri.c:449-484, encode_path into a buffer of exactly `len` bytes (line 455 clears it). -/
def encodePath (len : Nat) (path : Bytes) : Option (Bytes × Bool) :=
  encodeLoop (List.replicate len 0) 0 len path

/-- iri.c:486-499, pct_decode_str: in place; after a decoded escape the loop steps over the decoded
byte, so it is not looked at again. -/
def pctDecodeStr : Bytes → Bytes
  | [] => []
  | [c] => [if c = c%'+' then 32 else c]
  | [c, d] => (if c = c%'+' then 32 else c) :: pctDecodeStr [d]
  | c :: a :: b :: r =>
    if c = c%'+' then 32 :: pctDecodeStr (a :: b :: r)
    else if c = c%'%' && (isXdigit a && isXdigit b && !(a == c%'0' && b == c%'0')) then
      (hexVal a * 16 + hexVal b) :: pctDecodeStr r
    else c :: pctDecodeStr (a :: b :: r)

end Gmid

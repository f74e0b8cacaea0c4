import Verif.Model.CStr
import Verif.Model.Server

/-!
# Model of compat/vis.c and of log_request (gmid.c)
-/

set_option autoImplicit false

namespace Gmid

/-- compat/vis/vis.h:41-60 -/
structure VisFlags where
  octal : Bool := false
  cstyle : Bool := false
  sp : Bool := false
  tab : Bool := false
  nl : Bool := false
  safe : Bool := false
  dq : Bool := false
  all : Bool := false
  noslash : Bool := false
  glob : Bool := false
  deriving Repr, DecidableEq

/-- `VIS_WHITE|VIS_DQ`, as in gmid.c:145 and ge.c:86 -/
def visLog : VisFlags := { sp := true, tab := true, nl := true, dq := true }

def isGraph (c : UInt8) : Bool := 33 ≤ c && c ≤ 126
def isCntrl (c : UInt8) : Bool := c < 32 || c = 127
def isGlob (c : UInt8) : Bool := c = c%'*' || c = c%'?' || c = c%'[' || c = c%'#'

/-- compat/vis.c:48-75, isvisible.  `c` is a char converted to int: bytes of 128 and more are
negative, so the first test fails for them (and so do the comparisons with ASCII characters). -/
def isVisible (c : UInt8) (f : VisFlags) : Bool :=
  if c = c%'\\' || !f.all then
    (c < 128 && (!isGlob c || !f.glob) && isGraph c) || (!f.sp && c = 32) || (!f.tab && c = 9) || (!f.nl && c = 10) ||
    (f.safe && (c = 8 || c = 7 || c = 13 || isGraph c))
  else false

/-- one octal digit -/
def octDigit (n : Nat) : UInt8 := UInt8.ofNat (n % 8 + 48)

/-- compat/vis.c:102-137, the C-style sequences -/
def visCstyle (c next : UInt8) : Option Bytes :=
  if c = 10 then some b%"\\n" else if c = 13 then some b%"\\r" else if c = 8 then some b%"\\b"
  else if c = 7 then some b%"\\a" else if c = 11 then some b%"\\v" else if c = 9 then some b%"\\t"
  else if c = 12 then some b%"\\f" else if c = 32 then some b%"\\s"
  else if c = 0 then some (if 48 ≤ next && next ≤ 55 then b%"\\000" else b%"\\0")
  else none

/-- compat/vis.c:80-169, vis: the bytes stored (without the NUL) -/
def visChar (c : UInt8) (f : VisFlags) (next : UInt8) : Bytes :=
  if isVisible c f then
    if (c = c%'"' && f.dq) || (c = c%'\\' && !f.noslash) then [c%'\\', c] else [c]
  else
    match (if f.cstyle then visCstyle c next else none) with
    | some s => s
    | none =>
      if c &&& 0x7f = 32 || f.octal || (f.glob && isGlob c) then
        [c%'\\', octDigit (c.toNat / 64), octDigit (c.toNat / 8), octDigit c.toNat]
      else
        (if f.noslash then [] else [c%'\\']) ++
        (if 128 ≤ c then [c%'M'] else []) ++
        (let d := c &&& 0x7f
         if isCntrl d then [c%'^', if d = 127 then c%'?' else d + 64] else [c%'-', d])

/-- compat/vis.c:209-233, the loop of strnvis: `room` is `end - dst`.  The result: the bytes stored,
and what is left of the source. -/
def strnvisLoop (f : VisFlags) : Nat → Bytes → Bytes × Bytes
  | _, [] => ([], [])
  | 0, s => ([], s)
  | room + 1, c :: s =>
    if isVisible c f then
      if (c = c%'"' && f.dq) || (c = c%'\\' && !f.noslash) then
        if room = 0 then ([], c :: s)                       -- no space for the extra '\\'
        else
          let r := strnvisLoop f (room - 1) s
          (c%'\\' :: c :: r.1, r.2)
      else
        let r := strnvisLoop f room s
        (c :: r.1, r.2)
    else
      let t := visChar c f (hd s)
      if t.length ≤ room + 1 then
        let r := strnvisLoop f (room + 1 - t.length) s
        (t ++ r.1, r.2)
      else ([], c :: s)
termination_by _ s => s.length

/-- compat/vis.c:196-241, strnvis into a block of memory: `none` is a store outside of it.  `m.length`
is `siz`; the return value (the length of the full encoding) is not modelled, no caller uses it. -/
def strnvis (m src : Bytes) (f : VisFlags) : Option Bytes :=
  if m.length = 0 then some m
  else
    let r := (strnvisLoop f (m.length - 1) src).1
    if r.length + 1 ≤ m.length then some (r ++ 0 :: m.drop (r.length + 1)) else none

/-- enum log_format, gmid.h -/
inductive LogFormat where
  | legacy | condensed | common | combined
  deriving Repr, DecidableEq

/-- What log_request reads: the client, the peer certificate and the clock. -/
structure LogIn where
  rhost : Bytes
  rserv : Bytes
  /-- c->iri.schema, NULL before parse_iri has been called -/
  schema : Option Bytes
  domain : Bytes
  host : Bytes
  path : Bytes
  query : Bytes
  /-- c->req -/
  req : Option Bytes
  /-- tls_peer_cert_subject, when a certificate was provided -/
  subject : Option Bytes
  format : LogFormat
  code : Int
  mt : Bytes
  /-- strftime("%d/%b/%Y:%H:%M:%S %z") and strftime("%FT%T%z") -/
  tstamp : Bytes
  rfc3339 : Bytes
  deriving Repr, DecidableEq

/-- strstr(3): the tail starting at the first occurrence -/
def strstr (needle : Bytes) : Bytes → Option Bytes
  | [] => if needle.isEmpty then some [] else none
  | c :: s => if needle.isPrefixOf (c :: s) then some (c :: s) else strstr needle s

/-- strlcpy/strlcat into a char array, on the strings (Lemmas/CStr.lean proves that the memory-level
functions do this: `boxed_strlcpy`, `boxed_strlcat`, `boxed_strlcat_full`) -/
def cpyN (n : Nat) (s : Bytes) : Bytes := s.take (n - 1)
def catN (n : Nat) (a s : Bytes) : Bytes := (a ++ s).take (n - 1)

/-- gmid.c:111-133, the request as logged, in `char b[GEMINI_URL_LEN]` (1027 bytes, gmid.h) -/
def logIri (l : LogIn) : Bytes :=
  let n := 1027
  match l.schema with
  | some sch =>
    let b := cpyN n sch
    let b := catN n b b%"://"
    let b := catN n b (if l.domain ≠ [] then l.domain else l.host)
    let b := if hd l.path ≠ c%'/' then catN n b b%"/" else b
    let b := catN n b l.path
    if l.query ≠ [] then catN n (catN n b b%"?") l.query else b
  | none => cpyN n (l.req.getD [])

/-- gmid.c:135-147, the common name of the peer.  The array `cn[64] = "-"` is padded with NULs;
`none`: an access outside of it.  The offset 4 is from the beginning of the subject, as in the code. -/
def logCn (l : LogIn) : Option Bytes :=
  match l.subject with
  | none => some b%"-"
  | some subj =>
    match strstr b%"/CN=" subj with
    | none => some b%"-"
    | some _ =>
      let cntmp := (cpyN 64 (subj.drop 4)).takeWhile (· ≠ c%'/')
      (strnvis (c%'-' :: List.replicate 63 0) cntmp visLog).map cstr

/-- gmid.c:87-204, log_request: the text sent to the logger. -/
def logRequest (l : LogIn) : Option Bytes :=
  (logCn l).map fun cn =>
    let b := logIri l
    let h := if l.domain = [] then l.host else l.domain
    match l.format with
    | .legacy => l.rhost ++ b%":" ++ l.rserv ++ b%" GET " ++ b ++ b%" " ++ intDec l.code ++ b%" " ++ l.mt
    | .condensed => l.rfc3339 ++ b%" " ++ l.rhost ++ b%" " ++ cn ++ b%" " ++ h ++ b%" " ++ b ++ b%" 0 0 " ++
        intDec l.code ++ b%" " ++ l.mt
    | .common => h ++ b%" " ++ l.rhost ++ b%" - " ++ cn ++ b%" " ++ l.tstamp ++ b%" \"" ++ b ++ b%"\" " ++
        intDec l.code ++ b%" 0"
    | .combined => l.rhost ++ b%" - " ++ cn ++ b%" [" ++ l.tstamp ++ b%"] \"" ++ b ++ b%"\" " ++
        intDec l.code ++ b%" 0 \"-\" \"\""

end Gmid

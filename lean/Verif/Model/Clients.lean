import Verif.Model.Iri
import Verif.Model.Compat
import Verif.Model.Server

/-!
# The command-line clients gg (gg.c) and titan (titan.c)

libtls is an input: what `tls_read` finds is a script of arriving data, "try again" and failures
(the end of the script is the orderly end of the connection), and what `tls_write` does is a script
of lengths and "try again".  Left out: option parsing other than `-P`, name resolution, connecting,
the handshake, `-T`, and how `write(1, ...)` may fail or be cut short (its result is not looked at).
-/
set_option autoImplicit false

namespace Gmid

/-- what arrives from the peer, one `tls_read` at a time -/
inductive TRead where
  | data (b : UInt8) (r : Bytes)      -- at least one byte
  | want                              -- TLS_WANT_POLLIN / TLS_WANT_POLLOUT
  | fail                              -- -1
  deriving DecidableEq, Repr

/-- gg.c:165-187, dorep: read until `len` bytes are there or the peer is done; `none`: errx(1).
A `tls_read` with less room than there is data takes what fits and leaves the rest. -/
def dorep (len : Nat) : List TRead → Bytes → Option (Bytes × List TRead)
  | [], acc => some (acc, [])
  | .want :: r, acc => if len = 0 then some (acc, .want :: r) else dorep len r acc
  | .fail :: r, acc => if len = 0 then some (acc, .fail :: r) else none
  | .data b t :: r, acc =>
    if len = 0 then some (acc, .data b t :: r)
    else if t.length + 1 ≤ len then dorep (len - (t.length + 1)) r (acc ++ b :: t)
    else match t.drop (len - 1) with
      | [] => some (acc ++ (b :: t).take len, r)
      | b' :: t' => some (acc ++ (b :: t).take len, .data b' t' :: r)

/-- gg.c:45, the `-d` modes -/
inductive GgMode where
  | none | code | header | onlyMeta | all
  deriving DecidableEq, Repr

/-- what gg leaves behind: standard output, the text after "Server says: " on standard error (before
safeprint replaces what is not printable), the exit status; `stuck` is for the model's fuel only -/
structure GgOut where
  out : Bytes := []
  says : Option Bytes := none
  status : Nat := 1
  stuck : Bool := false
  deriving DecidableEq, Repr

/-- exit(3) keeps the low eight bits; gg.c:505-507: 2x is success -/
def ggStatus (code : Int) : Nat := if 20 ≤ code ∧ code < 30 then 0 else (code % 256).toNat

/-- gg.c:259-269: the rest of the loop once the header was seen; `o` is what was printed so far -/
def ggBody (code : Nat) : Nat → List TRead → GgOut → GgOut
  | 0, _, o => { o with stuck := true }
  | fuel + 1, script, o =>
    match dorep 2048 script [] with
    | none => { o with status := 1 }
    | some ([], _) => { o with status := ggStatus code }
    | some (b, rest) => ggBody code fuel rest { o with out := o.out ++ b }

/-- how many bytes a script delivers (no C counterpart; bounds the loop) -/
def TRead.bytes : List TRead → Nat
  | [] => 0
  | .data _ t :: r => t.length + 1 + TRead.bytes r
  | _ :: r => TRead.bytes r

/-- gg.c:253-337, get after the request was sent, and gg.c:504-507, the end of main.
`printf("%s")` stops at a NUL.  With an early `break` nothing more is read. -/
def ggReply (mode : GgMode) (quiet : Bool) (script : List TRead) : GgOut :=
  match dorep 2048 script [] with
  | none => {}
  | some ([], _) => { status := ggStatus (-1) }
  | some (buf, rest) =>
    match memmem buf b%"\r\n" with
    | some (some t) =>
      match buf with
      | d1 :: d2 :: 32 :: _ =>
        if isDigit d1 && isDigit d2 then
          let code := (d1.toNat - 48) * 10 + (d2.toNat - 48)
          match mode with
          | .code => { out := natDec code ++ b%"\n", status := ggStatus code }
          | .header => { out := cstr (buf.take t) ++ b%"\n", status := ggStatus code }
          | .onlyMeta => { out := cstr ((buf.take t).drop 3) ++ b%"\n", status := ggStatus code }
          | .all => ggBody code (TRead.bytes script + 1) rest { out := buf }
          | .none =>
            let says := if (code < 20 ∨ 30 ≤ code) ∧ quiet = false then some (cstr ((buf.take t).drop 3)) else none
            ggBody code (TRead.bytes script + 1) rest { out := buf.drop (t + 2), says := says }
        else {}
      | _ => {}
    | _ => {}

/-- gg.c:142-163, doreq: `ws` is what `tls_write` does each time, the number of bytes taken (cut to
what there is), 0 for "try again", `none` for a failure.  Returns what was sent; `false`: errx(1), or
the script ended before everything was sent. -/
def doreq : List (Option Nat) → Bytes → Bytes × Bool
  | _, [] => ([], true)
  | [], _ => ([], false)
  | none :: _, _ => ([], false)
  | some n :: ws, buf =>
    let (s, ok) := doreq ws (buf.drop n)
    (buf.take n ++ s, ok)

/-- gg.c:217-246: the request and where it goes; `err` is errx(1) -/
def ggRequest (isAddr : Bytes → Bool) (r : Bytes) : Res (Bytes × Bytes × Bytes) :=
  if 1027 ≤ r.length then .err
  else if 1027 ≤ r.length + 2 then .err
  else match parseIri isAddr r with
    | .ok i => .ok (r ++ b%"\r\n", i.host, if i.port = [] then b%"1965" else i.port)
    | .err => .err
    | .ub => .ub

/-- gg.c:363-385, parse_proxy: `(proxy_host, proxy_port)`; `none` is errx(1) -/
def parseProxyArg (arg : Bytes) : Option (Bytes × Bytes) :=
  match arg with
  | 91 :: rest =>
    match rest.dropWhile (· != 93) with
    | [] => none
    | [_] => some (rest.takeWhile (· != 93), b%"1965")
    | _ :: 58 :: p => some (rest.takeWhile (· != 93), p)
    | _ => none
  | _ =>
    match arg.dropWhile (· != 58) with
    | [] => some (arg, b%"1965")
    | _ :: p => some (arg.takeWhile (· != 58), p)

/-! ## titan -/

/-- what `tls_write` does in titan: takes some bytes, or nothing now -/
inductive TWrite where
  | took (n : Nat)                    -- n + 1 bytes, cut to what there is
  | want
  | fail                              -- 0 or -1
  deriving DecidableEq, Repr

/-- one round of iomux: what the `tls_read` and the `tls_write` of the round find -/
structure Round where
  rd : Option TRead                   -- `none`: the end of the connection, 0
  wr : TWrite
  deriving DecidableEq, Repr

/-- the outcome of iomux: returned -1; returned the reply bytes (empty: 0, all written); or the rounds
ran out and it is still waiting -/
inductive IoRes where
  | fail
  | reply (b : Bytes)
  | waiting
  deriving DecidableEq, Repr

/-- titan.c:143-160, the second half of an iomux round: `k` goes on with what is left to write -/
def ioWrite (rd : Bool) (w : TWrite) (inp : Bytes) (k : Bytes → Bytes × IoRes) : Bytes × IoRes :=
  if inp = [] ∧ rd = false then ([], .reply [])
  else if inp = [] then k inp
  else match w with
    | .want => k inp
    | .fail => ([], .fail)
    | .took n => (inp.take (n + 1) ++ (k (inp.drop (n + 1))).1, (k (inp.drop (n + 1))).2)

/-- titan.c:102-164, iomux: `rd` says if there is a reply buffer (`out != NULL`), `room` its space
left, `got` the bytes of the reply so far, `inp` what is still to write.  Returns what was written
and the outcome.  A `tls_read` without room is taken to return 0. -/
def iomux (rd : Bool) : List Round → Nat → Bytes → Bytes → Bytes × IoRes
  | [], _, _, _ => ([], .waiting)
  | q :: qs, room, got, inp =>
    if rd = true then
      if room = 0 then (if got = [] then ([], .fail) else ([], .reply got)) else
      match q.rd with
      | some .want => if got = [] then ioWrite rd q.wr inp (iomux rd qs room got) else iomux rd qs room got inp
      | some .fail => ([], .fail)
      | none => if got = [] then ([], .fail) else ([], .reply got)
      | some (.data b t) =>
        iomux rd qs (room - ((b :: t).take room).length) (got ++ (b :: t).take room) inp
    else ioWrite rd q.wr inp (iomux rd qs room got)

/-- titan.c:212-233, parse_response on the reply line: what is printed and the exit status -/
def titanResponse (r : Bytes) : Bytes × Nat :=
  match r with
  | d1 :: d2 :: 32 :: m =>
    if isDigit d1 && isDigit d2 then
      let code := (d1.toNat - 48) * 10 + (d2.toNat - 48)
      if code < 10 ∨ 70 ≤ code then ([], 1)
      else if 20 ≤ code ∧ code < 30 then ([], 0)
      else if 30 ≤ code ∧ code < 40 then (m ++ b%"\n", 0)
      else ([], 2)
    else ([], 1)
  | _ => ([], 1)

/-- the outcome of titan's loop: what was sent, and (output, status), or still waiting -/
structure TitanOut where
  sent : Bytes
  res : Option (Bytes × Nat)
  deriving DecidableEq, Repr

/-- titan.c:355-378, the loop that sends the file and reads the reply; `runs` gives the rounds of each
iomux call, `file` what fread finds, in blocks of `bufsiz` -/
def titanLoop (bufsiz : Nat) : List (List Round) → Bytes → TitanOut
  | [], _ => { sent := [], res := none }
  | qs :: runs, file =>
    let (s, r) := iomux true qs 1025 [] (file.take bufsiz)
    match r with
    | .waiting => { sent := s, res := none }
    | .fail => { sent := s, res := some ([], 1) }
    | .reply [] =>
      let o := titanLoop bufsiz runs (file.drop bufsiz)
      { o with sent := s ++ o.sent }
    | .reply b =>
      match memmem b b%"\r\n" with
      | some (some t) => { sent := s, res := some (titanResponse (cstr (b.take t))) }
      | _ => { sent := s, res := some ([], 1) }

/-- titan.c:303-317: the parameters added to the path, the four xasprintf cases -/
def titanParams (size : Nat) : Option Bytes → Option Bytes → Bytes
  | some t, some m => b%";size=" ++ natDec size ++ b%";token=" ++ t ++ b%";mime=" ++ m
  | some t, none => b%";size=" ++ natDec size ++ b%";token=" ++ t
  | none, some m => b%";size=" ++ natDec size ++ b%";mime=" ++ m
  | none, none => b%";size=" ++ natDec size

/-- titan.c:293-324: the request line; `err` is errx(1).  `size` is the size of the file. -/
def titanRequest (isAddr : Bytes → Bool) (url : Bytes) (size : Nat) (token mimeArg : Option Bytes) : Res Bytes :=
  if 1025 ≤ url.length then .err
  else match parseIri isAddr url with
    | .err => .err
    | .ub => .ub
    | .ok i =>
      if i.schema ≠ b%"titan" then .err
      else
        match serializeIri { i with path := i.path ++ titanParams size token mimeArg } (List.replicate 1025 0) 1025 with
        | none => .ub
        | some (_, false) => .err
        | some (m, true) =>
          match strlcat m b%"\r\n" 1025 with
          | none => .ub
          | some (m', l) => if 1025 ≤ l then .err else .ok (cstr m')

end Gmid

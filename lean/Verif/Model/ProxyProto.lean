import Verif.Model.Basic
import Verif.Model.Compat
import Verif.Model.Server

/-!
# Model of proxy-proto.c and of the buffer layer of server.c (read_cb, proxy_socket) and proxy.c (proxy_write_cb)

Socket addresses are an arbitrary type `A`; getaddrinfo(3) with AI_NUMERICHOST is `num af text`, `af` being `none`
for AF_UNSPEC; getnameinfo(3) with NI_NUMERICHOST is `name`.
-/

set_option autoImplicit false

namespace Gmid

/-- struct proxy_protocol_v1 (gmid.h:301-309) for PROTO_V4 and PROTO_V6 -/
structure PP1 (A : Type) where
  fam : Nat
  src : A
  dst : A
  sport : Nat
  dport : Nat
  deriving Repr, DecidableEq

/-- outcome of proxy_proto_v1_parse: -1; 0 with PROTO_UNKNOWN, in which case `*consumed` is not assigned; or 0 with
the data, `*consumed` and the buffer, in which the separators were overwritten with NUL -/
inductive PPRes (A : Type) where
  | reject
  | unknown
  | accept (pp : PP1 A) (consumed : Nat) (buf : Bytes)
  deriving Repr, DecidableEq

/-- strchr(3): the text before the first `c` and what follows it -/
def cutAt (c : UInt8) : Bytes → Option (Bytes × Bytes)
  | [] => none
  | x :: r => if x = c then some ([], r) else (cutAt c r).map fun p => (x :: p.1, p.2)

/-- proxy-proto.c:40-63, check_proto_v1: the family, or -1, and where the pointer is left (past "TCP" even
when it fails after it) -/
def checkProto (s : Bytes) : Option Nat × Bytes :=
  if b%"TCP".isPrefixOf s then
    let s := s.drop 3
    if hd s = c%'4' then (if hd (s.drop 1) = c%' ' then (some 4, s.drop 2) else (none, s))
    else if hd s = c%'6' then (if hd (s.drop 1) = c%' ' then (some 6, s.drop 2) else (none, s))
    else (none, s)
  else (none, s)

variable {A : Type}

/-- proxy-proto.c:92-120, check_ip_v1: the text, its address and the rest -/
def checkIp (num : Option Nat → Bytes → Option A) (af : Option Nat) (s : Bytes) : Option (Bytes × A × Bytes) :=
  match cutAt c%' ' s with
  | none => none
  | some (t, r) =>
    match num af t with
    | none => none
    | some a => some (t, a, r)

/-- proxy-proto.c:122-142, check_port_v1: the text, the port and the rest (after the separator) -/
def checkPort (s : Bytes) : Option (Bytes × Nat × Bytes) :=
  let t := s.takeWhile fun c => c != c%' ' && c != c%'\r'
  match s.drop t.length with
  | [] => none
  | _ :: r =>
    match strtonum t 0 65535 with
    | (v, none) => some (t, v.toNat, r)
    | (_, some _) => none

/-- proxy-proto.c:144-183, proxy_proto_v1_parse with the `buf.length` bytes of a buffer in which a NUL follows
them; strings are read up to the first NUL.  The pointer arithmetic for `*consumed` is on the rests of the
string. -/
def ppParse (num : Option Nat → Bytes → Option A) (buf : Bytes) : PPRes A :=
  match memmem buf b%"\r\n" with
  | some (some _) =>
    let s := cstr buf
    if b%"PROXY ".isPrefixOf s then
      match checkProto (s.drop 6) with
      | (none, r) => if b%"UNKNOWN".isPrefixOf r then .unknown else .reject
      | (some fam, r) =>
        match checkIp num (some fam) r with
        | none => .reject
        | some (t1, a1, r) =>
          match checkIp num none r with
          | none => .reject
          | some (t2, a2, r) =>
            match checkPort r with
            | none => .reject
            | some (t3, p1, r) =>
              match checkPort r with
              | none => .reject
              | some (t4, p2, r) =>
                if hd r = c%'\n' then
                  let n := s.length - r.length + 1
                  .accept { fam := fam, src := a1, dst := a2, sport := p1, dport := p2 } n
                    (s.take 11 ++ t1 ++ [0] ++ t2 ++ [0] ++ t3 ++ [0] ++ t4 ++ [0] ++ [c%'\n'] ++ buf.drop n)
                else .reject
    else .reject
  | _ => .reject

/-- struct buflayer (gmid.h:311-318): `data[0..len)`, and what read_cb uses of struct client -/
structure RState where
  /-- c->proxy_proto -/
  proto : Bool
  data : Bytes := []
  readPos : Nat := 0
  hasTail : Bool := false
  rhost : Bytes := []
  rserv : Bytes := []
  /-- what the peer has sent or will send, not read yet -/
  sock : Bytes
  /-- what libtls has received -/
  out : Bytes := []
  /-- read_cb returned -1: libtls fails -/
  failed : Bool := false
  deriving Repr, DecidableEq

/-- server.c:1308-1390, read_cb called by libtls for `buflen` bytes; read(2) gives up to `n` of the bytes still to
come (none: it would block, fails or is at the end; read_cb then changes nothing).  The result of
getnameinfo, or its failure, is `name`.  proxy_proto_v1_string only writes a debug message. -/
def readCb (num : Option Nat → Bytes → Option A) (name : A → Option Bytes) (buflen n : Nat) (st : RState) : Res RState :=
  if st.failed then .ok st
  else if !st.proto then
    let k := min n buflen
    .ok { st with sock := st.sock.drop k, out := st.out ++ st.sock.take k }
  else if st.hasTail then
    let left := st.data.length - st.readPos
    let copy := min buflen left
    let st' := { st with out := st.out ++ (st.data.drop st.readPos).take copy, readPos := st.readPos + copy }
    .ok (if left = copy then { st' with proto := false, hasTail := false } else st')
  else
    let avail := 108 - st.data.length - 1
    if avail = 0 then .ok { st with failed := true }
    else
      let k := min n avail
      if st.sock.take k = [] then .ok st
      else
        let st := { st with data := st.data ++ st.sock.take k, sock := st.sock.drop k }
        match memmem st.data b%"\r\n" with
        | some (some _) =>
          match ppParse num st.data with
          | .reject => .ok { st with failed := true }
          | .unknown => .ub                                   -- `consumed` is not initialised
          | .accept pp consumed buf =>
            match name pp.src with
            | none => .ok { st with data := buf, failed := true }
            | some h =>
              let st := { st with data := buf, rhost := h, rserv := natDec pp.sport }
              if consumed < st.data.length then .ok { st with readPos := consumed, hasTail := true }
              else .ok { st with proto := false, readPos := 0, hasTail := false }
        | _ => .ok st

/-- a sequence of calls -/
def readRun (num : Option Nat → Bytes → Option A) (name : A → Option Bytes) : List (Nat × Nat) → RState → Res RState
  | [], st => .ok st
  | (b, n) :: r, st =>
    match readCb num name b n st with
    | .ok st => readRun num name r st
    | .err => .err
    | .ub => .ub

/-- server.c:598-610, in proxy_socket: the line for the upstream server, stored in the same buffer; when it does
not fit, `len` is left as it was.  The rest of the buffer is irrelevant (`data` has `len` bytes).
snprintf writes the first 107 bytes of the line before the first one is cleared. -/
def proxyLine (v4 : Bool) (rhost to rserv toPort : Bytes) : Bytes :=
  b%"PROXY TCP" ++ [if v4 then c%'4' else c%'6'] ++ b%" " ++ rhost ++ b%" " ++ to ++ b%" " ++ rserv ++ b%" " ++ toPort ++ b%"\r\n"

def proxySocketBuf (v4 : Bool) (to toPort : Bytes) (st : RState) : RState :=
  let line := proxyLine v4 st.rhost to st.rserv toPort
  if line.length ≥ 108 then { st with data := (0 :: line.drop 1).take st.data.length }
  else { st with data := line }

/-- proxy.c:241-242, proxy_enqueue_req without TLS (when the relay has proxy-v1): what precedes the request -/
def sentBeforePlain (st : RState) : Bytes := st.data

/-- proxy.c:312-320, proxy_write_cb: what is written before the first byte of TLS data.  `len - read_pos` is a size_t:
when it wraps around, memory beyond the buffer is read. -/
def sentBeforeTls (st : RState) : Res Bytes :=
  if st.data.length < st.readPos then .ub else .ok (st.data.drop st.readPos)

end Gmid

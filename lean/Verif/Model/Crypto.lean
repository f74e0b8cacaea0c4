import Verif.Model.Config

/-!
# Model of crypto.c: private key operations in a process of their own

The structures of a message are records; what imsg does with them is Model/Imsg.lean.  What OpenSSL does with a key is a
parameter.
-/

set_option autoImplicit false

namespace Gmid

/-- the IMSG_CRYPTO_* messages (gmid.h:377-379) -/
inductive KOp where
  | rsaEnc
  | rsaDec
  | ecSign
  deriving Repr, DecidableEq

/-- what OpenSSL does.  `rsaSize`: none when the key is not an RSA key.  `rsa enc key from padding`: none is -1, otherwise the
bytes written; `ec`: none is 0.  An operation that fails writes nothing. -/
structure KeyOps (K : Type) where
  rsaSize : K → Option Nat
  rsa : Bool → K → Bytes → Int → Option Bytes
  isEc : K → Bool
  ec : K → Bytes → Option Bytes

/-- struct imsg_crypto_req (crypto.c:42-49) with its data; `pid` is that of the imsg header; `hash` are the 128 bytes of the array -/
structure CReq where
  type : KOp
  pid : Nat
  id : UInt64
  hash : Bytes
  flen : Nat
  tlen : Nat
  padding : Int
  from_ : Bytes
  deriving Repr, DecidableEq

/-- struct imsg_crypto_res (crypto.c:51-56) with its data -/
structure CRes where
  type : KOp
  id : UInt64
  ret : Int
  len : Nat
  data : Bytes
  deriving Repr, DecidableEq

/-- crypto.c:98-109, get_pkey: `hash` is compared as a string; none is NULL -/
def getPkey {K : Type} (hash : Bytes) : List (Bytes × Option K) → Option K
  | [] => none
  | p :: r => if p.1 = hash then p.2 else getPkey hash r

/-- the C string in an array; none when it has no NUL: what follows the array is read -/
def arrayStr (a : Bytes) : Option Bytes := if 0 ∈ a then some (a.takeWhile (fun c => decide (c ≠ 0))) else none

/-- crypto.c:111-232, crypto_dispatch_server: the instance the reply is for, and the reply.  `.err`: the process ends (and with it all the
others).  `.ub`: a read or write outside of an array.  calloc succeeds. -/
def cryptoDispatch {K : Type} (ops : KeyOps K) (pkis : List (Bytes × Option K)) (q : CReq) : Res (Nat × CRes) :=
  if q.from_.length ≠ q.flen then .err
  else
    match arrayStr q.hash with
    | none => .ub
    | some hash =>
      match getPkey hash pkis with
      | none => .err
      | some key =>
        if q.type = .ecSign then
          if ops.isEc key then
            match ops.ec key q.from_ with
            | none => .ok (q.pid - 1, { type := q.type, id := q.id, ret := 0, len := 0, data := [] })
            | some s => .ok (q.pid - 1, { type := q.type, id := q.id, ret := 1, len := s.length, data := s })
          else .err
        else
          match ops.rsaSize key with
          | none => .err
          | some _ =>
            match ops.rsa (decide (q.type = .rsaEnc)) key q.from_ q.padding with
            | none => .ok (q.pid - 1, { type := q.type, id := q.id, ret := -1, len := 0, data := [] })
            | some s =>
              if s.length > q.tlen then .ub
              else .ok (q.pid - 1, { type := q.type, id := q.id, ret := s.length, len := s.length, data := s })

/-- a call of rsae_priv_enc, rsae_priv_dec or ecdsae_do_sign: the hash in the ex_data of the key, RSA_size of it, and the arguments -/
structure KCall where
  op : KOp
  hash : Bytes
  size : Nat
  from_ : Bytes
  padding : Int
  deriving Repr, DecidableEq

/-- crypto.c:262-285 and 404-424: the request with which rsae_send_imsg and ecdsae_send_enc_imsg begin, in the server process `inst`; `id` is
`++reqid` -/
def cryptoAsk (inst : Nat) (id : UInt64) (c : KCall) : Res CReq :=
  if c.hash.length ≥ 128 then .err
  else
    .ok { type := c.op, pid := inst + 1, id := id, hash := c.hash ++ List.replicate (128 - c.hash.length) 0, flen := c.from_.length
          tlen := if c.op = .ecSign then 0 else c.size, padding := if c.op = .ecSign then 0 else c.padding, from_ := c.from_ }

/-- crypto.c:291-351 and 430-488: the reply; what the caller gets is the result, none for a failure.  server_dispatch_crypto
returns -1 for these messages (server.c:1653-1657).  (The RSA one returns res.ret and stores the bytes, the ECDSA one decodes the
signature.)  A reply of another kind is fatal. -/
def cryptoAnswer (id : UInt64) (c : KCall) (r : CRes) : Res (Option Bytes) :=
  if c.op = .ecSign then
    if r.type ≠ .ecSign then .err
    else if r.data.length ≠ r.len then .err
    else if r.id ≠ id then .err
    else .ok (if r.ret > 0 then some r.data else none)
  else
    if r.type = .ecSign then .err
    else if (r.data.length : Int) ≠ r.ret then .err
    else if r.id ≠ id then .err
    else .ok (if r.ret > 0 then some (r.data.take r.len) else if r.ret = 0 then some [] else none)

/-- a server process: the last request id, the call it waits for, the messages between it and the crypto process, and the calls
that have ended with their results -/
structure KSrv where
  reqid : UInt64 := 0
  call : Option KCall := none
  out : List CReq := []
  inn : List CRes := []
  log : List (KCall × Option Bytes) := []
  deriving Repr, DecidableEq

/-- what happens: a server process calls for an operation, the crypto process handles a message of one, and one gets its reply -/
inductive KEv where
  | ask (i : Nat) (c : KCall)
  | handle (i : Nat)
  | answer (i : Nat)
  deriving Repr, DecidableEq

/-- crypto.c:242-351, 384-488: a call does not return before its reply, so that there is one at a time in a process -/
def kStep {K : Type} (ops : KeyOps K) (pkis : List (Bytes × Option K)) (ss : List KSrv) : KEv → Res (List KSrv)
  | .ask i c =>
    match ss[i]? with
    | none => .ok ss
    | some s =>
      if s.call ≠ none then .ok ss
      else
        match cryptoAsk i (s.reqid + 1) c with
        | .ub => .ub
        | .err => .err
        | .ok q => .ok (ss.set i { s with reqid := s.reqid + 1, call := some c, out := s.out ++ [q] })
  | .handle i =>
    match ss[i]? with
    | none => .ok ss
    | some s =>
      match s.out with
      | [] => .ok ss
      | q :: r =>
        match cryptoDispatch ops pkis q with
        | .ub => .ub
        | .err => .err
        | .ok (j, a) =>
          let ss := ss.set i { s with out := r }
          match ss[j]? with
          | none => .err
          | some t => .ok (ss.set j { t with inn := t.inn ++ [a] })
  | .answer i =>
    match ss[i]? with
    | none => .ok ss
    | some s =>
      match s.call, s.inn with
      | some c, a :: r =>
        match cryptoAnswer s.reqid c a with
        | .ub => .ub
        | .err => .err
        | .ok x => .ok (ss.set i { s with call := none, inn := r, log := s.log ++ [(c, x)] })
      | _, _ => .ok ss

def kRun {K : Type} (ops : KeyOps K) (pkis : List (Bytes × Option K)) : List KSrv → List KEv → Res (List KSrv)
  | ss, [] => .ok ss
  | ss, e :: r =>
    match kStep ops pkis ss e with
    | .ub => .ub
    | .err => .err
    | .ok ss => kRun ops pkis ss r

end Gmid

import Verif.Model.Puny
import Verif.Model.Vis
import Verif.Model.Server

/-!
# Model of the host name log_request prints

`c->domain` is filled by puny_decode even if the name turns out to be malformed, and `c->iri.host` is a null pointer until parse_iri has been called.  Here is what the
decoder leaves in its buffer whatever the outcome (Model/Puny has the buffer of a success only; `Lemmas/LogName` proves that the two agree), and log_request with the null pointer.
-/

set_option autoImplicit false

namespace Gmid

/-- puny.c:50-75, copy_label, on a label with a '-': `basic` is what is before the last one.  It stores the bytes up to the first that is greater than 'z' (`char` is signed). -/
def copyBasic (basic m : Bytes) : Bool × Bytes :=
  let good := basic.takeWhile fun c => !decide (122 < c.toNat ∧ c.toNat < 128)
  (good.length == basic.length, good ++ m.drop good.length)

/-- puny.c:175-217 as `decodeLoop`, with the buffer at the end in both cases; `false`: an error was reported.  insert (puny.c:92-142) stores nothing when it reports one. -/
def decodeLoopB : Nat → Bytes → Nat → Nat → Nat → Nat → Bytes → PRes (Bool × Bytes)
  | _, m, _, _, _, _, [] => .ok (true, m)
  | 0, m, _, _, _, _, _ :: _ => .ok (false, m)                     -- not reached
  | f + 1, m, n, i, bias, np, s =>
    let oldi := i % 4294967296
    match deltaLoop bias 36 i 1 s with
    | none => .ok (false, m)
    | some (i, r) =>
      match adapt (toInt32 (i + 18446744073709551616 - oldi)) (np + 1) (oldi = 0) with
      | none => .arith
      | some b =>
        let bias := (b + 4294967296).toNat % 4294967296
        let n := (n + i / (np + 1)) % 4294967296
        let i := i % (np + 1)
        match punyInsert m n i with
        | .ok m => decodeLoopB f m n (i + 1) bias (np + 1) r
        | .err => .ok (false, m)
        | .arith => .arith
        | .mem => .mem

/-- puny.c:144-217 as `punyDecodeLabel`, with the buffer at the end in both cases -/
def punyDecodeLabelB (str m : Bytes) : PRes (Bool × Bytes) :=
  if str.take 4 ≠ b%"xn--" then .ok (true, (str ++ List.replicate m.length 0).take m.length)
  else
    let str := str.drop 4
    match splitLastDash str with
    | some (basic, s) =>
      if str.length > m.length then .ok (false, m)
      else
        let r := copyBasic basic m
        if !r.1 then .ok (false, r.2)
        else if (0 : UInt8) ∉ r.2 then .mem
        else decodeLoopB s.length r.2 128 0 72 (cstr r.2).length s
    | none =>
      if (0 : UInt8) ∉ m then .mem
      else decodeLoopB str.length m 128 0 72 (cstr m).length str

/-- puny.c:239-271 as `punyLoop`, with the buffer at the end in both cases; strlcat has stored what fits when it reports that not all does -/
def punyLoopB : List Bytes → Bytes → PRes (Bool × Bytes)
  | [], m => .ok (true, m)                                         -- not reached
  | l :: rest, m =>
    if l.length ≥ 64 then .ok (false, m)
    else
      match punyDecodeLabelB l m with
      | .err => .err
      | .arith => .arith
      | .mem => .mem
      | .ok (false, m) => .ok (false, m)
      | .ok (true, m) =>
        match rest with
        | [] => .ok (true, m)
        | _ =>
          match strlcat m b%"." m.length with
          | none => .mem
          | some (m, k) =>
            if k ≥ m.length then .ok (false, m)
            else if (0 : UInt8) ∉ m then .mem
            else
              let n := (cstr m).length
              match punyLoopB rest (m.drop n) with
              | .ok (b, t) => .ok (b, m.take n ++ t)
              | .err => .err
              | .arith => .arith
              | .mem => .mem

/-- puny.c:226-271, puny_decode into `len` bytes: did it work, and the buffer.  A null pointer gives the empty string. -/
def punyDecodeB (len : Nat) (hostname : Option Bytes) : PRes (Bool × Bytes) :=
  match hostname with
  | none => .ok (true, List.replicate len 0)
  | some h => punyLoopB (splitDot h) (List.replicate len 0)

/-- server.c:388-404, what handle_handshake leaves in c->domain, and whether the name was well-formed; `pp` is the name of the address the connection was accepted at.
`ub` when the decoder is undefined, or leaves no string. -/
def domainAfter (pp : Bytes) (sni : Option Bytes) : Res (Bool × Bytes) :=
  match punyDecodeB 254 sni with
  | .ok (b, m) =>
    if (0 : UInt8) ∉ m then .ub
    else if b && cstr m == [] then .ok (true, if pp.length ≥ 254 then [] else pp)
    else .ok (b, cstr m)
  | .err => .err                                                   -- not reached
  | .arith => .ub
  | .mem => .ub

/-- the pointers of c->iri (iri.c:393-419): all null at first (the client is calloc'ed, server.c:1404-1456), none from the call of parse_iri on, whether it succeeds or not -/
structure IriPtrs where
  schema : Option Bytes := none
  host : Option Bytes := none
  path : Option Bytes := none
  query : Option Bytes := none
  deriving Repr, DecidableEq

/-- the part of log_request that is common to gmid (gmid.c:111-133) and gemexp (ge.c:52-76), with null pointers: strlcat from one is undefined -/
def logIriP (l : LogIn) (p : IriPtrs) : Res Bytes :=
  match p.schema with
  | none => .ok (logIri { l with schema := none })
  | some sch =>
    match p.path, p.query with
    | some path, some query =>
      if l.domain = [] then
        match p.host with
        | none => .ub
        | some h => .ok (logIri { l with schema := some sch, host := h, path := path, query := query })
      else .ok (logIri { l with schema := some sch, path := path, query := query })
    | _, _ => .ub

/-- gmid.c:160 and 172, ge.c:91: `*c->domain == '\0' ? c->iri.host : c->domain`, an argument for %s -/
def logHostP (l : LogIn) (p : IriPtrs) : Res Bytes :=
  if l.domain = [] then (match p.host with | none => .ub | some h => .ok h) else .ok l.domain

/-- gmid.c:87-204, log_request, with null pointers: those of `l` that `p` has are not used.  LEGACY and COMBINED do not print the host. -/
def logRequestP (l : LogIn) (p : IriPtrs) : Res Bytes :=
  match logIriP l p, logCn l with
  | .ub, _ => .ub
  | .err, _ => .err
  | .ok _, none => .ub
  | .ok b, some cn =>
    match l.format with
    | .legacy => .ok (l.rhost ++ b%":" ++ l.rserv ++ b%" GET " ++ b ++ b%" " ++ intDec l.code ++ b%" " ++ l.mt)
    | .condensed =>
      (match logHostP l p with
      | .ub => .ub
      | .err => .err
      | .ok h => .ok (l.rfc3339 ++ b%" " ++ l.rhost ++ b%" " ++ cn ++ b%" " ++ h ++ b%" " ++ b ++ b%" 0 0 " ++ intDec l.code ++ b%" " ++ l.mt))
    | .common =>
      (match logHostP l p with
      | .ub => .ub
      | .err => .err
      | .ok h => .ok (h ++ b%" " ++ l.rhost ++ b%" - " ++ cn ++ b%" " ++ l.tstamp ++ b%" \"" ++ b ++ b%"\" " ++ intDec l.code ++ b%" 0"))
    | .combined => .ok (l.rhost ++ b%" - " ++ cn ++ b%" [" ++ l.tstamp ++ b%"] \"" ++ b ++ b%"\" " ++ intDec l.code ++ b%" 0 \"-\" \"\"")

/-- ge.c:45-92, log_request of gemexp, with null pointers: what is written to stderr -/
def geLogRequestP (l : LogIn) (p : IriPtrs) : Res Bytes :=
  match logIriP l p, logCn l with
  | .ub, _ => .ub
  | .err, _ => .err
  | .ok _, none => .ub
  | .ok b, some cn =>
    match logHostP l p with
    | .ub => .ub
    | .err => .err
    | .ok h => .ok (l.rhost ++ b%" " ++ cn ++ b%" " ++ h ++ b%" " ++ b ++ b%" " ++ intDec l.code ++ b%" " ++ l.mt ++ b%"\n")

end Gmid

import Verif.Model.Server
import Verif.Model.Compat

/-!
# Model of fcgi.c

The bytes written to the application are a `Bytes`; the state of the connection with it is the
client together with `sbuf` (the first `soff` bytes of it) and the input buffer of `cgibev`.
-/

set_option autoImplicit false

namespace Gmid

/-! ## what is sent to the application -/

/-- fcgi.c:113-130, prepare_header (with struct fcgi_header, fcgi.c:26-36): the request id is 1, the
fields are unsigned chars -/
def fcgiHeader (type size padding : Nat) : Bytes :=
  [1, UInt8.ofNat type, 0, 1, UInt8.ofNat (size >>> 8), UInt8.ofNat (size &&& 0xFF), UInt8.ofNat padding, 0]

/-- fcgi.c:132-148, fcgi_begin_request: role FCGI_RESPONDER, flag FCGI_KEEP_CONN -/
def fcgiBegin : Bytes := fcgiHeader 1 8 0 ++ [0, 1, 1, 0, 0, 0, 0, 0]

/-- fcgi.c:164-172, the four bytes of a length (a uint32_t) -/
def fcgiLen (n : Nat) : Bytes :=
  [UInt8.ofNat (n >>> 24 ||| 0x80), UInt8.ofNat ((n >>> 16) &&& 0xFF), UInt8.ofNat ((n >>> 8) &&& 0xFF), UInt8.ofNat (n &&& 0xFF)]

/-- fcgi.c:150-185, fcgi_send_param; writes to the evbuffer succeed -/
def fcgiParam (name value : Bytes) : Bytes :=
  let size := name.length + value.length + 8
  let padlen := (8 - (size &&& 7)) &&& 7
  fcgiHeader 4 size padlen ++ (fcgiLen name.length ++ fcgiLen value.length ++ name ++ value) ++ List.replicate padlen 0

/-- fcgi.c:187-201, fcgi_end_param: empty FCGI_PARAMS and FCGI_STDIN records -/
def fcgiEnd : Bytes := fcgiHeader 4 0 0 ++ fcgiHeader 5 0 0

/-- the calls of fcgi_req in order: fcgi_begin_request, the parameters, fcgi_end_param -/
def fcgiStream (params : List (Bytes × Bytes)) : Bytes :=
  fcgiBegin ++ params.flatMap (fun p => fcgiParam p.1 p.2) ++ fcgiEnd

/-- snprintf into a buffer of `n` bytes, as a string -/
def snprintfN (n : Nat) (s : Bytes) : Bytes := s.take (n - 1)

/-- fcgi.c:374-397, path_translate into a buffer of PATH_MAX bytes -/
def pathTranslate (path locDir rootDir : Bytes) : Bytes :=
  let go (root : Bytes) : Bytes :=
    let sufx := if root.getLast? = some c%'/' then [] else b%"/"
    snprintfN 4096 (root ++ sufx ++ path.dropWhile (· == c%'/'))
  if locDir ≠ [] then go locDir else if rootDir ≠ [] then go rootDir else []

/-- What fcgi_req reads besides the request: the certificate and the connection, as texts. -/
structure FcgiCert where
  subject : Bytes
  issuer : Bytes
  hash : Bytes
  version : Bytes
  cipher : Bytes
  strength : Bytes
  notBefore : Bytes
  notAfter : Bytes
  deriving Repr, DecidableEq

structure FcgiIn where
  iri : Iri
  rhost : Bytes
  /-- loc->fcgi_strip -/
  strip : Int
  /-- loc->params, in order -/
  params : List (Bytes × Bytes)
  /-- loc->dir and the dir of the first location -/
  locDir : Bytes
  rootDir : Bytes
  /-- the peer certificate, if provided -/
  cert : Option FcgiCert
  /-- GMID_VERSION -/
  software : Bytes
  deriving Repr

/-- fcgi.c:423-429: the value of the first SCRIPT_NAME parameter, or "" -/
def scriptName : List (Bytes × Bytes) → Bytes
  | [] => []
  | p :: r => if p.1 = b%"SCRIPT_NAME" then p.2 else scriptName r

/-- fcgi.c:431-433: the length without trailing slashes -/
def trimSlashes (s : Bytes) : Bytes := (s.reverse.dropWhile (· == c%'/')).reverse

/-- fcgi.c:413-416: the path with its leading slash, `char path[GEMINI_URL_LEN]` -/
def fcgiPath (stripped : Bytes) : Bytes :=
  if hd stripped ≠ c%'/' then snprintfN 1027 (c%'/' :: stripped) else cpy1027 stripped
where cpy1027 (s : Bytes) : Bytes := s.take 1026

/-- fcgi.c:431-446: PATH_INFO, SCRIPT_NAME and PATH_TRANSLATED.  strncmp of `l` bytes, the bytes of the script
name, with the path is 0 iff the path starts with them (neither contains a NUL). -/
def fcgiNames (x : FcgiIn) : Bytes × Bytes × Bytes :=
  let stripped := stripPath x.iri.path x.strip
  let path := fcgiPath stripped
  let script := scriptName x.params
  let s := trimSlashes script
  if s.isPrefixOf path && (hd (path.drop s.length) = c%'/' || path.drop s.length = []) then
    (path.drop s.length, path.take s.length, pathTranslate (path.drop s.length) x.locDir x.rootDir)
  else (stripped, script, pathTranslate stripped x.locDir x.rootDir)

/-- fcgi.c:399-506, fcgi_req: the parameters sent, in order.  The certificate's data comes from libtls and
strftime. -/
def fcgiReqParams (x : FcgiIn) : List (Bytes × Bytes) :=
  let n := fcgiNames x
  [(b%"PATH_INFO", n.1), (b%"SCRIPT_NAME", n.2.1), (b%"GATEWAY_INTERFACE", b%"CGI/1.1"),
   (b%"PATH_TRANSLATED", n.2.2), (b%"QUERY_STRING", x.iri.query), (b%"REMOTE_ADDR", x.rhost), (b%"REMOTE_HOST", x.rhost),
   (b%"REQUEST_METHOD", b%"GET"), (b%"SERVER_NAME", x.iri.host),
   (b%"SERVER_PORT", if x.iri.port = [] then b%"1965" else x.iri.port),
   (b%"SERVER_PROTOCOL", b%"GEMINI"), (b%"SERVER_SOFTWARE", x.software), (b%"GEMINI_URL_PATH", x.iri.path)] ++
  (if x.iri.query ≠ [] && c%'=' ∉ x.iri.query then
    [(b%"GEMINI_SEARCH_STRING", pctDecodeStr x.iri.query)] else []) ++
  x.params.filter (fun p => p.1 ≠ b%"SCRIPT_NAME") ++
  (match x.cert with
   | some t =>
     [(b%"AUTH_TYPE", b%"CERTIFICATE"), (b%"REMOTE_USER", t.subject), (b%"TLS_CLIENT_ISSUER", t.issuer),
      (b%"TLS_CLIENT_HASH", t.hash), (b%"TLS_VERSION", t.version), (b%"TLS_CIPHER", t.cipher),
      (b%"TLS_CIPHER_STRENGTH", t.strength), (b%"TLS_CLIENT_NOT_BEFORE", t.notBefore),
      (b%"TLS_CLIENT_NOT_AFTER", t.notAfter)]
   | none => [(b%"AUTH_TYPE", [])])

/-! ## what is received from it -/

/-- the client, `sbuf[0..soff)` and the input buffer of `cgibev` -/
structure FClient where
  c : Client
  sbuf : Bytes := []
  src : Bytes := []
  deriving Repr

section
variable (env : Env)

/-- fcgi.c:347-372, fcgi_error: the descriptor is closed (resources: elsewhere); without a header the
client gets an error, else the request is done -/
def fcgiError (f : FClient) : FClient :=
  if f.c.code = 0 then { f with c := startReply env { f.c with pfd := -1 } 42 b%"CGI error" }
  else { f with c := { f.c with pfd := -1, type := .done } }

/-- fcgi.c:239-266, once `sbuf` holds a CRLF at `t`.  The content of `sbuf` is read up to the NUL stored
over the CR: `line` is the text before it (C strings: up to a NUL).  Returns whether to go on with the
body. -/
def fcgiHeaderLine (f : FClient) (t : Nat) : FClient × Bool :=
  let line := f.sbuf.take t
  match line with
  | a :: b :: 32 :: mt =>
    if isDigit a && isDigit b then
      let code : Int := ((a.toNat - 48) * 10 + (b.toNat - 48) : Nat)
      if code < 10 || code ≥ 70 then (fcgiError env f, false)
      else
        let f := { f with c := startReply env f.c code (cstr mt) }
        if f.c.code < 20 || f.c.code > 29 then (fcgiError env f, false)
        else ({ f with c := { f.c with out := f.c.out ++ f.sbuf.drop (t + 2) } }, true)
    else (fcgiError env f, false)
  | _ => (fcgiError env f, false)

/-- fcgi.c:215-272, fcgi_handle_stdout with the `len` bytes of content at the front of `src` (all there:
fcgi.c:300).  `sbuf` has 1029 bytes.  start_reply never fails here (no allocation failures). -/
def fcgiStdout (f : FClient) (len : Nat) : FClient :=
  if f.c.code = 0 then
    let l := min len (1029 - f.sbuf.length)
    let f := { f with sbuf := f.sbuf ++ f.src.take l, src := f.src.drop l }
    let len := len - l
    match memmem f.sbuf b%"\r\n" with
    | some (some t) =>
      let r := fcgiHeaderLine env f t
      if r.2 then
        { r.1 with c := { r.1.c with out := r.1.c.out ++ r.1.src.take len }, src := r.1.src.drop len }
      else r.1
    | _ => if f.sbuf.length = 1029 then fcgiError env f else f
  else { f with c := { f.c with out := f.c.out ++ f.src.take len }, src := f.src.drop len }

/-- fcgi.c:334-335 -/
def fcgiStop (f : FClient) : Res FClient :=
  let f := fcgiError env f
  match clientWrite env 0 none f.c with
  | .ok c => .ok { f with c := c }
  | .err => .err
  | .ub => .ub

/-- fcgi.c:274-336, fcgi_read: the loop; every round drains 8 bytes or more, so the fuel, the length of
`src`, suffices.  After fcgi_error the type is done: client_write then has no file to read. -/
def fcgiLoop' : Nat → FClient → Res FClient
  | n, f =>
    if f.c.type = .done then fcgiStop env f
    else
      match f.src with
      | _ :: ty :: i1 :: i0 :: l1 :: l0 :: pad :: _ :: rest =>
        if i0.toNat + i1.toNat * 256 ≠ 1 then fcgiStop env f
        else
          let len := l0.toNat + l1.toNat * 256
          if rest.length < len + pad.toNat then .ok f
          else
            match n with
            | 0 => .err                                            -- not reached
            | n + 1 =>
              let f := { f with src := rest }
              if ty = 3 then
                if len ≠ 8 then fcgiStop env f
                else fcgiLoop' n { f with c := { f.c with type := .done }, src := rest.drop (8 + pad.toNat) }
              else if ty = 7 then fcgiLoop' n { f with src := rest.drop (len + pad.toNat) }
              else if ty = 6 then
                let g := fcgiStdout env f len
                fcgiLoop' n { g with src := g.src.drop pad.toNat }
              else fcgiStop env f
      | _ => .ok f                                                 -- fewer than 8 bytes

/-- fcgi.c:274-336, fcgi_read, when `data` has just arrived from the application -/
def fcgiRead (f : FClient) (data : Bytes) : Res FClient :=
  let f := { f with src := f.src ++ data }
  fcgiLoop' env f.src.length f

/-- What happens while an application answers: data from it, the client's connection accepting `n` bytes, or
the application closing its side (the error callback of `cgibev`). -/
inductive FEv where
  | data (b : Bytes)
  | flush (n : Nat)
  | eof
  deriving Repr

/-- one event; nothing happens once the client is closed (client_close frees `cgibev`) -/
def fcgiStep (ev : FEv) (f : FClient) : Res FClient :=
  if f.c.closed then .ok f
  else
    match ev with
    | .data b => fcgiRead env f b
    | .flush n =>
      match step env 0 (.writable n none) f.c with
      | .ok c => .ok { f with c := c }
      | .err => .err
      | .ub => .ub
    | .eof => .ok (fcgiError env f)

/-- a history of events -/
def fcgiRun : List FEv → FClient → Res FClient
  | [], f => .ok f
  | ev :: r, f =>
    match fcgiStep env ev f with
    | .ok f => fcgiRun r f
    | .err => .err
    | .ub => .ub

end

end Gmid

import Verif.Model.Basic

/-!
# Model of config.c: how the configuration reaches the other processes

The structures sent whole (struct location, envlist, proxy, address, fcgi, without their pointers) are arbitrary types `L`, `E`,
`P`, `AD`, `F`; a descriptor in a message is the path it was opened from, and `files` gives the contents
(they do not change during the reload).  Strings of fixed-size fields are `Bytes`.  proc_compose(3) gives every server process the same
messages; C36 and C37 are about their transport.
-/

set_option autoImplicit false

namespace Gmid

/-- the receiving process: all the server processes, or the crypto process -/
inductive Proc where
  | server
  | crypto
  deriving Repr, DecidableEq

/-- the IMSG_RECONF_* messages (gmid.h:362-384) with their payload and the path of their descriptor -/
inductive CMsg (L E P AD F : Type) where
  | start
  | logFmt (n : Nat)
  | mime (m ext : Bytes)
  | protos (n : Nat)
  | sock (a : AD)
  | fcgi (f : F)
  | host (domain : Bytes)
  | cert (fd : Bytes)
  | key (fd : Bytes)
  | ocsp (fd : Bytes)
  | hostAddr (a : AD)
  | loc (l : L) (fd : Option Bytes)
  | env (e : E)
  | alias (a : Bytes)
  | proxy (p : P) (fd : Option Bytes)
  | proxyCert (fd : Bytes)
  | proxyKey (fd : Bytes)
  | fin
  deriving Repr, DecidableEq

variable {L E P AD F : Type}

/-- struct location as parsed: the data, reqca_path and the params -/
structure PLoc (L E : Type) where
  loc : L
  reqca : Option Bytes
  params : List E

/-- struct proxy as parsed -/
structure PProxy (P : Type) where
  proxy : P
  reqca : Option Bytes
  cert : Option Bytes
  key : Option Bytes

/-- struct vhost as parsed (gmid.h:209-241); cert_path and key_path are set (parse.y:350-353) -/
structure PHost (L E P AD : Type) where
  domain : Bytes
  cert : Bytes
  key : Bytes
  ocsp : Option Bytes
  addrs : List AD
  locs : List (PLoc L E)
  aliases : List Bytes
  proxies : List (PProxy P)

/-- what config_send uses of struct conf -/
structure PConf (L E P AD F : Type) where
  logFormat : Nat
  mime : List (Bytes × Bytes)
  protos : Nat
  addrs : List AD
  fcgi : List F
  hosts : List (PHost L E P AD)
  /-- use_privsep_crypto -/
  privsep : Bool

/-- config.c:193-205, config_open_send: `none` when the file cannot be opened (fatal) -/
def openSend (files : Bytes → Option Bytes) (to : Proc) (mk : Bytes → CMsg L E P AD F) (path : Bytes) : Option (List (Proc × CMsg L E P AD F)) :=
  match files path with
  | none => none
  | some _ => some [(to, mk path)]

/-- config.c:207-236, config_send_kp -/
def sendKp (files : Bytes → Option Bytes) (privsep : Bool) (cert key : Bytes) : Option (List (Proc × CMsg L E P AD F)) :=
  match files cert with
  | none => none
  | some _ =>
    let ms := [(Proc.server, CMsg.cert cert)] ++ (if privsep then [(Proc.crypto, CMsg.cert cert)] else [])
    let target := if !privsep then Proc.server else Proc.crypto
    (openSend files target .key key).map fun k => ms ++ k

/-- reqca_path is given and cannot be opened, fatal (config.c:375-377, 416-420) -/
def caMissing (files : Bytes → Option Bytes) (reqca : Option Bytes) : Bool := reqca.any fun path => (files path).isNone

/-- config.c:367-388, in config_send: a location, then its params -/
def sendLoc (files : Bytes → Option Bytes) (l : PLoc L E) : Option (List (Proc × CMsg L E P AD F)) :=
  let ms := [(Proc.server, CMsg.loc l.loc l.reqca)] ++ l.params.map fun e => (Proc.server, CMsg.env e)
  if caMissing files l.reqca then none else some ms

/-- config.c:402-438, in config_send: a proxy, then its certificate and key when both are given -/
def sendProxy (files : Bytes → Option Bytes) (p : PProxy P) : Option (List (Proc × CMsg L E P AD F)) :=
  if caMissing files p.reqca then none
  else
    let ms := [(Proc.server, CMsg.proxy p.proxy p.reqca)]
    match p.cert, p.key with
    | some c, some k =>
      match openSend files .server .proxyCert c, openSend files .server .proxyKey k with
      | some a, some b => some (ms ++ a ++ b)
      | _, _ => none
    | _, _ => some ms

/-- the results of a loop that stops at the first failure -/
def sendAll {α β : Type} (f : α → Option (List β)) : List α → Option (List β)
  | [] => some []
  | a :: r =>
    match f a with
    | none => none
    | some ms => (sendAll f r).map fun rs => ms ++ rs

/-- config.c:326-438, in config_send: the messages for a host -/
def sendHost (files : Bytes → Option Bytes) (privsep : Bool) (h : PHost L E P AD) : Option (List (Proc × CMsg L E P AD F)) :=
  match sendKp files privsep h.cert h.key with
  | none => none
  | some kp =>
    match (match h.ocsp with | none => some [] | some path => openSend files .server .ocsp path) with
    | none => none
    | some oc =>
      match sendAll (sendLoc files) h.locs with
      | none => none
      | some ls =>
        match sendAll (sendProxy files) h.proxies with
        | none => none
        | some ps =>
          some ([(Proc.server, CMsg.host h.domain)] ++ kp ++ oc ++ h.addrs.map (fun a => (Proc.server, CMsg.hostAddr a)) ++ ls ++
            h.aliases.map (fun a => (Proc.server, CMsg.alias a)) ++ ps)

/-- config.c:287-438, config_send.  `sup a` tells whether socket(2) supports the address (config_send_socks, config.c:238-284,
skips those it does not); creating and binding the socket succeed. -/
def configSend (files : Bytes → Option Bytes) (sup : AD → Bool) (c : PConf L E P AD F) : Option (List (Proc × CMsg L E P AD F)) :=
  (sendAll (sendHost files c.privsep) c.hosts).map fun hs =>
    [(Proc.server, CMsg.logFmt c.logFormat)] ++ c.mime.map (fun m => (Proc.server, CMsg.mime m.1 m.2)) ++ [(Proc.server, CMsg.protos c.protos)] ++
    (c.addrs.filter sup).map (fun a => (Proc.server, CMsg.sock a)) ++ c.fcgi.map (fun f => (Proc.server, CMsg.fcgi f)) ++ hs

/-- gmid.c:445-469, main_configure: everything, between RECONF_START and RECONF_END for both kinds of process -/
def mainConfigure (files : Bytes → Option Bytes) (sup : AD → Bool) (c : PConf L E P AD F) : Option (List (Proc × CMsg L E P AD F)) :=
  (configSend files sup c).map fun ms => [(.server, .start), (.crypto, .start)] ++ ms ++ [(.server, .fin), (.crypto, .fin)]

/-- struct location in a server process: with the CA store -/
structure WLoc (L E C : Type) where
  loc : L
  reqca : Option C
  params : List E
  deriving Repr, DecidableEq

/-- struct proxy in a server process -/
structure WProxy (P C : Type) where
  proxy : P
  reqca : Option C
  cert : Option Bytes
  key : Option Bytes
  deriving Repr, DecidableEq

/-- struct vhost in a server process -/
structure WHost (L E P AD C : Type) where
  domain : Bytes
  cert : Option Bytes := none
  key : Option Bytes := none
  ocsp : Option Bytes := none
  addrs : List AD := []
  locs : List (WLoc L E C) := []
  aliases : List Bytes := []
  proxies : List (WProxy P C) := []
  deriving Repr, DecidableEq

/-- a static pointer of config_recv: NULL, to the last element of its list, or to freed memory -/
inductive Cur where
  | null
  | last
  | dangling
  deriving Repr, DecidableEq

/-- struct conf in a child, with the static variables of config_recv and config_crypto_recv_kp, and the number of
RECONF_DONE sent.  `pkis` are the hashes with their keys. -/
structure WState (L E P AD F C K : Type) where
  logFormat : Nat := 0
  mime : List (Bytes × Bytes) := []
  protos : Nat := 0
  addrs : List AD := []
  fcgi : List F := []
  hosts : List (WHost L E P AD C) := []
  pkis : List (Bytes × Option K) := []
  h : Cur := .null
  l : Cur := .null
  p : Cur := .null
  pki : Cur := .null
  done : Nat := 0
  deriving Repr, DecidableEq

/-- update the last element -/
def modLast {α : Type} (f : α → α) : List α → List α
  | [] => []
  | [a] => [f a]
  | a :: r => a :: modLast f r

variable {C K : Type}

/-- config.c:58-162, config_purge.  The lists are emptied; log_format is kept.  (conf->addrs is zeroed but not
initialised, which is enough for TAILQ_INSERT_HEAD.)  TLS_PROTOCOL_TLSv1_2 | TLS_PROTOCOL_TLSv1_3 is 24.  The static pointers
still point to what was freed. -/
def purge (s : WState L E P AD F C K) : WState L E P AD F C K :=
  let dang (c : Cur) : Cur := if c = .null then .null else .dangling
  { s with mime := [], protos := 24, addrs := [], fcgi := [], hosts := [], pkis := [], h := dang s.h, l := dang s.l, p := dang s.p, pki := dang s.pki }

/-- config.c:471-515, config_crypto_recv_kp -/
def cryptoRecvKp (files : Bytes → Option Bytes) (hash : Bytes → Option Bytes) (loadKey : Bytes → Option K)
    (s : WState L E P AD F C K) : CMsg L E P AD F → Res (WState L E P AD F C K)
  | .cert fd =>
    if s.pki ≠ .null then .err
    else
      match (files fd).bind hash with
      | none => .err
      | some x => .ok { s with pkis := s.pkis ++ [(x, none)], pki := .last }
  | .key fd =>
    match s.pki with
    | .null => .err
    | .dangling => .ub
    | .last =>
      match (files fd).bind loadKey with
      | none => .err
      | some k => .ok { s with pkis := modLast (fun p => (p.1, some k)) s.pkis, pki := .null }
  | _ => .err

/-- config.c:517-752, config_recv, in a server process (server.c:1610-1650 passes it every message) or the crypto
process (crypto.c:80-96 passes it four, the others are fatal).  `.err`: the process exits.  `loadCa` is load_ca
(utils.c), `hash` ssl_pubkey_hash, `loadKey` ssl_load_pkey. -/
def configRecv (files : Bytes → Option Bytes) (loadCa : Bytes → Option C) (hash : Bytes → Option Bytes) (loadKey : Bytes → Option K)
    (me : Proc) (s : WState L E P AD F C K) (m : CMsg L E P AD F) : Res (WState L E P AD F C K) :=
  let onHost (f : WHost L E P AD C → WHost L E P AD C) (s : WState L E P AD F C K) : Res (WState L E P AD F C K) :=
    match s.h with
    | .null => .err
    | .dangling => .ub
    | .last => .ok { s with hosts := modLast f s.hosts }
  let lastHost : Option (WHost L E P AD C) := s.hosts.getLast?
  let ca (fd : Option Bytes) : Option (Option C) :=
    match fd with
    | none => some none
    | some path => ((files path).bind loadCa).map some
  match m with
  | .start => let s := purge s; .ok { s with h := .null, p := .null }
  | .fin => .ok { s with done := s.done + 1 }
  | .cert fd =>
    if me = .crypto then cryptoRecvKp files hash loadKey s m
    else if s.h = .last ∧ (lastHost.bind (·.cert)).isSome then .err
    else match files fd with | none => .err | some d => onHost (fun h => { h with cert := some d }) s
  | .key fd =>
    if me = .crypto then cryptoRecvKp files hash loadKey s m
    else if s.h = .last ∧ (lastHost.bind (·.key)).isSome then .err
    else match files fd with | none => .err | some d => onHost (fun h => { h with key := some d }) s
  | m =>
    if me = .crypto then .err
    else
      match m with
      | .logFmt n => .ok { s with logFormat := n }
      | .mime t e => if t.length ≥ 128 ∨ e.length ≥ 128 then .err else .ok { s with mime := s.mime ++ [(t, e)] }
      | .protos n => .ok { s with protos := n }
      | .sock a => .ok { s with addrs := a :: s.addrs }
      | .fcgi f => .ok { s with fcgi := s.fcgi ++ [f] }
      | .host d => .ok { s with hosts := s.hosts ++ [{ domain := d }], h := .last, l := .null, p := .null }
      | .ocsp fd =>
        if s.h = .last ∧ (lastHost.bind (·.ocsp)).isSome then .err
        else match files fd with | none => .err | some d => onHost (fun h => { h with ocsp := some d }) s
      | .hostAddr a => onHost (fun h => { h with addrs := h.addrs ++ [a] }) s
      | .loc l fd =>
        match ca fd with
        | none => .err
        | some x => onHost (fun h => { h with locs := h.locs ++ [{ loc := l, reqca := x, params := [] }] }) { s with l := .last }
      | .env e =>
        match s.l with
        | .null => .err
        | .dangling => .ub
        | .last => onHost (fun h => { h with locs := modLast (fun l => { l with params := l.params ++ [e] }) h.locs }) s
      | .alias a => onHost (fun h => { h with aliases := h.aliases ++ [a] }) s
      | .proxy p fd =>
        match ca fd with
        | none => .err
        | some x => onHost (fun h => { h with proxies := h.proxies ++ [{ proxy := p, reqca := x, cert := none, key := none }] }) { s with p := .last }
      | .proxyCert fd =>
        match s.p with
        | .null => .err
        | .dangling => .ub
        | .last =>
          if ((lastHost.bind (·.proxies.getLast?)).bind (·.cert)).isSome then .err
          else match files fd with
            | none => .err
            | some d => onHost (fun h => { h with proxies := modLast (fun p => { p with cert := some d }) h.proxies }) s
      | .proxyKey fd =>
        match s.p with
        | .null => .err
        | .dangling => .ub
        | .last =>
          if ((lastHost.bind (·.proxies.getLast?)).bind (·.key)).isSome then .err
          else match files fd with
            | none => .err
            | some d => onHost (fun h => { h with proxies := modLast (fun p => { p with key := some d }) h.proxies }) s
      | _ => .err

/-- the messages for one process, in order -/
def recvAll (files : Bytes → Option Bytes) (loadCa : Bytes → Option C) (hash : Bytes → Option Bytes) (loadKey : Bytes → Option K)
    (me : Proc) : WState L E P AD F C K → List (CMsg L E P AD F) → Res (WState L E P AD F C K)
  | s, [] => .ok s
  | s, m :: r =>
    match configRecv files loadCa hash loadKey me s m with
    | .ok s => recvAll files loadCa hash loadKey me s r
    | .err => .err
    | .ub => .ub

/-- those addressed to it -/
def forProc (me : Proc) (ms : List (Proc × CMsg L E P AD F)) : List (CMsg L E P AD F) :=
  (ms.filter fun x => decide (x.1 = me)).map fun x => x.2

end Gmid

import Verif.Model.Parse
import Verif.Model.Server

/-!
# Model of the names in certificates (compat/libtls/tls_verify.c) and of which certificate a listening address offers

A certificate is reduced to the names in it, as OpenSSL decodes them.  inet_pton(3) is a parameter.
-/

set_option autoImplicit false

namespace Gmid

/-- strchr(s, '.'): the string from the first dot on -/
def fromDot : Bytes → Option Bytes
  | [] => none
  | c :: r => if c = c%'.' then some (c :: r) else fromDot r

/-- compat/libtls/tls_verify.c:32-78, tls_match_name; `true` is 0 -/
def tlsMatchName (cert name : Bytes) : Bool :=
  if eqNoCase cert name then true
  else
    match cert with
    | [] => false
    | c :: dom =>
      if c = c%'*' then
        match dom with
        | [] => false
        | d :: dom' =>
          if d ≠ c%'.' then false
          else if dom'.head? = some c%'.' then false
          else
            match fromDot dom' with
            | none => false
            | some nd =>
              if (nd.drop 1).head? = some c%'.' then false
              else if name.head? = some c%'.' then false
              else
                match fromDot name with
                | none => false
                | some domain => if domain.length = 1 then false else eqNoCase dom domain
      else false

/-- GENERAL_NAME: a DNS name, with whether it is an IA5String; an address; something else -/
inductive AltName where
  | dns (ia5 : Bool) (data : Bytes)
  | ip (data : Bytes)
  | other
  deriving Repr, DecidableEq

/-- the names in a certificate: the alternative names, `none` when they cannot be decoded; and the common names, each `none` when it has no UTF-8 form -/
structure CertNames where
  alts : Option (List AltName)
  cns : List (Option Bytes)
  deriving Repr, DecidableEq

/-- compat/libtls/tls_verify.c:120-203, the loop of tls_check_subject_altname: match and exists, `none` is an error.  `ip` is the name as an address. -/
def altLoop (ip : Option Bytes) (name : Bytes) (ex : Bool) : List AltName → Option (Bool × Bool)
  | [] => some (false, ex)
  | .other :: r => altLoop ip name ex r
  | .dns ia5 d :: r =>
    match ip with
    | some _ => altLoop ip name true r
    | none =>
      if ia5 then
        if 0 ∈ d then none
        else if d = b%" " then none
        else if tlsMatchName d name then some (true, true)
        else altLoop ip name true r
      else altLoop ip name true r
  | .ip a :: r =>
    match ip with
    | none => altLoop ip name true r
    | some x => if a = x then some (true, true) else altLoop ip name true r

/-- compat/libtls/tls_verify.c:213-312, tls_check_common_name; `none` is an error -/
def checkCn (ip : Option Bytes) (cns : List (Option Bytes)) (name : Bytes) : Option Bool :=
  match cns with
  | [] => some false
  | [none] => none
  | [some cn] =>
    if cn.length < 1 ∨ cn.length > 64 then none
    else if 0 ∈ cn then none
    else if ip.isSome then some (decide (cn = name))
    else some (tlsMatchName cn name)
  | _ => none

/-- compat/libtls/tls_verify.c:314-333, tls_check_name; `none` is an error -/
def tlsCheckName (inet : Bytes → Option Bytes) (c : CertNames) (name : Bytes) : Option Bool :=
  match c.alts with
  | none => none
  | some alts =>
    match altLoop (inet name) name false alts with
    | none => none
    | some (true, _) => some true
    | some (false, true) => some false
    | some (false, false) => checkCn (inet name) c.cns name

/-! ## The certificate of a connection -/

/-- a key pair: its number, and the names in the certificate -/
structure KP where
  id : Nat
  names : CertNames
  deriving Repr, DecidableEq

/-- struct vhost: the addresses it listens on, its certificate, and the rest -/
structure TServer where
  addrs : List AddrInfo
  kp : KP
  v : Vhost
  deriving Repr, DecidableEq

/-- server.c:93-102, match_addr -/
def matchAddr (t s : AddrInfo) : Bool :=
  t.flags == s.flags && t.family == s.family && t.socktype == s.socktype && t.protocol == s.protocol && t.addr.length == s.addr.length && t.addr == s.addr

/-- struct tls_config: the first key pair and the others.  tls_config_set_keypair_ocsp_mem replaces the first, and tls_config_add_keypair_ocsp_mem adds one at
the end (compat/libtls/tls_config.c:184-194, 370-396 and 641-655) -/
structure TlsConf where
  first : Option KP := none
  rest : List KP := []
  deriving Repr, DecidableEq

/-- server.c:1472-1492, the inner loop of add_matching_kps -/
def addKpsOf (addr : AddrInfo) (kp : KP) : List AddrInfo → TlsConf × Bool → TlsConf × Bool
  | [], s => s
  | va :: r, (t, any) =>
    if !matchAddr addr va then addKpsOf addr kp r (t, any)
    else if !any then addKpsOf addr kp r ({ t with first := some kp }, true)
    else addKpsOf addr kp r ({ t with rest := t.rest ++ [kp] }, true)

/-- server.c:1464-1494, add_matching_kps; key pairs that cannot be loaded are fatal -/
def addMatchingKps (addr : AddrInfo) : List TServer → TlsConf × Bool → TlsConf × Bool
  | [], s => s
  | h :: r, s => addMatchingKps addr r (addKpsOf addr h.kp h.addrs s)

/-- server.c:1496-1525, setup_tls, for one address -/
def setupTls (addr : AddrInfo) (hosts : List TServer) : TlsConf := (addMatchingKps addr hosts ({}, false)).1

/-- compat/libtls/tls_server.c:119-128, the loop of tls_servername_cb; `none`: the handshake fails -/
def sniLoop (inet : Bytes → Option Bytes) (name : Bytes) (dflt : Option KP) : List KP → Option (Option KP)
  | [] => some dflt
  | kp :: r =>
    match tlsCheckName inet kp.names name with
    | none => none
    | some true => some (some kp)
    | some false => sniLoop inet name dflt r

/-- compat/libtls/tls_server.c:81-142 and 312-338, tls_servername_cb: the key pair for a connection that asks for `sni`; `none`: the handshake fails -/
def offered (inet : Bytes → Option Bytes) (t : TlsConf) (sni : Option Bytes) : Option (Option KP) :=
  match sni with
  | none => some t.first
  | some name => if (inet name).isSome then some t.first else sniLoop inet name t.first t.rest

end Gmid

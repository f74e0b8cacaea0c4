import Verif.Model.Server

/-!
# The `protocols` string: tls_config_parse_protocols(3) and what libtls does with its result

compat/libtls, the copy of libtls gmid is built with when the system has none.
-/

set_option autoImplicit false

namespace Gmid

/-- compat/libtls/tls.h:39: TLS_PROTOCOL_TLSv1_2 (TLSv1_0 and TLSv1_1, lines 36-37, are the same bit) -/
def protoTls12 : UInt32 := 8
/-- compat/libtls/tls.h:40: TLS_PROTOCOL_TLSv1_3 -/
def protoTls13 : UInt32 := 16
/-- compat/libtls/tls.h:42-43: TLS_PROTOCOL_TLSv1 -/
def protoTls1 : UInt32 := protoTls12 ||| protoTls13
/-- compat/libtls/tls.h:45: TLS_PROTOCOLS_ALL -/
def protosAll : UInt32 := protoTls1
/-- compat/libtls/tls.h:46: TLS_PROTOCOLS_DEFAULT -/
def protosDefault : UInt32 := protoTls12 ||| protoTls13

/-- compat/libtls/tls_config.c:229, the strings strsep(&q, ",:") gives one after the other until it gives NULL: what is
between the separators, with the last one being what is after the last separator (possibly nothing). -/
def strsepAll : Bytes → List Bytes
  | [] => [[]]
  | c :: s =>
    if c = c%',' ∨ c = c%':' then [] :: strsepAll s
    else match strsepAll s with
      | [] => [[c]]                      -- not reached: strsepAll is never empty
      | w :: ws => (c :: w) :: ws

/-- compat/libtls/tls_config.c:230-231 -/
def protoSkip : Bytes → Bytes
  | [] => []
  | c :: s => if c = c%' ' ∨ c = 9 then protoSkip s else c :: s

/-- compat/libtls/tls_config.c:242-258: the two chains of comparisons -/
def protoNamed (p : Bytes) : UInt32 :=
  let proto :=
    if eqNoCase p b%"all" || eqNoCase p b%"legacy" then protosAll
    else if eqNoCase p b%"default" || eqNoCase p b%"secure" then protosDefault
    else 0
  if eqNoCase p b%"tlsv1" then protoTls1
  else if eqNoCase p b%"tlsv1.0" then protoTls12
  else if eqNoCase p b%"tlsv1.1" then protoTls12
  else if eqNoCase p b%"tlsv1.2" then protoTls12
  else if eqNoCase p b%"tlsv1.3" then protoTls13
  else proto

/-- compat/libtls/tls_config.c:233-237: `negate`, and `p` after it -/
def protoNegate (p : Bytes) : Bool × Bytes :=
  match p with
  | c :: r => if c = c%'!' then (true, r) else (false, p)
  | [] => (false, p)

/-- compat/libtls/tls_config.c:239-269: the rest of the body of the loop; `none` is `return (-1)` -/
def protoApply (protos : UInt32) (negate : Bool) (p : Bytes) : Option UInt32 :=
  let protos := if negate && protos == 0 then protosAll else protos
  let proto := protoNamed p
  if proto = 0 then none
  else some (if negate then protos &&& ~~~ proto else protos ||| proto)

/-- compat/libtls/tls_config.c:229-269: the body of the loop on one string of strsep -/
def protoStep (protos : UInt32) (p : Bytes) : Option UInt32 :=
  protoApply protos (protoNegate (protoSkip p)).1 (protoNegate (protoSkip p)).2

/-- compat/libtls/tls_config.c:229-269: the loop -/
def protoLoop (protos : UInt32) : List Bytes → Option UInt32
  | [] => some protos
  | p :: ps =>
    match protoStep protos p with
    | none => none
    | some v => protoLoop v ps

/-- compat/libtls/tls_config.c:212-276, tls_config_parse_protocols.  `s` is the C string without its NUL, `none` is NULL.
(strdup failing, which gives -1 as well, is not modelled.) -/
def parseProtocols : Option Bytes → Option UInt32
  | none => some protosDefault
  | some s => protoLoop 0 (strsepAll s)

/-- tls_config_parse_protocols as parse.y:247, 518 use it -/
def libtlsProtos (s : Bytes) : Option Nat := (parseProtocols (some s)).map UInt32.toNat

/-- the versions of SSL and TLS OpenSSL knows -/
inductive TlsVer | ssl2 | ssl3 | tls10 | tls11 | tls12 | tls13
deriving DecidableEq, Repr

/-- compat/libtls/tls.c:517-528, tls_configure_ssl: the versions turned off with SSL_OP_NO_... -/
def sslNo (protocols : UInt32) : TlsVer → Bool
  | .ssl2 | .ssl3 | .tls10 | .tls11 => true
  | .tls12 => protocols &&& protoTls12 == 0
  | .tls13 => protocols &&& protoTls13 == 0

/-- the versions an endpoint whose configuration has `protocols` uses: those that are not turned off -/
def offers (protocols : UInt32) (v : TlsVer) : Bool := !sslNo protocols v

end Gmid

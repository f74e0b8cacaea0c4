import Verif.Model.CStr
import Verif.Model.Deploy

/-!
# Certificates and keys: names of public keys, loading of key pairs, client CAs

utils.c, compat/libtls/tls.c, tls_keypair.c and tls_conninfo.c.  What OpenSSL does is a parameter.
-/

set_option autoImplicit false

namespace Gmid

/-- EVP_PKEY_RSA, EVP_PKEY_EC and the others -/
inductive KeyKind where
  | rsa
  | ec
  | other
  deriving Repr, DecidableEq

/-- what OpenSSL makes of the bytes of a file.  `pems d` are the certificates that one PEM_read_bio_X509 after the other gives, up to the first
that fails; `clean d`: it failed for want of another certificate.  `key`: PEM_read_bio_PrivateKey.  `pub`, `keyPub`: the public key.
`digest`: X509_pubkey_digest with SHA-256, none when it fails.  `kind`: EVP_PKEY_id.  `isCa`: X509_check_ca is not 0.
`verify trusted x`: X509_verify_cert for the certificate and a store, with no other certificates.  Allocations succeed. -/
structure PkiLib (X K P : Type) where
  pems : Bytes → List X
  clean : Bytes → Bool
  key : Bytes → Option K
  pub : X → P
  keyPub : K → P
  digest : P → Option Bytes
  kind : P → KeyKind
  isCa : X → Bool
  verify : List X → X → Int

/-- "0123456789abcdef"[n] -/
def hexChar (n : UInt8) : UInt8 := if n < 10 then 48 + n else 87 + n

/-- utils.c:430-433 and compat/libtls/tls_conninfo.c:49-52: the loop that writes the digits of `d` from `off` on; `none`: outside of the buffer.
`>> 4` is the division by 16, `& 0xf` the remainder. -/
def hexLoop : Bytes → Nat → Bytes → Option (Bytes × Nat)
  | m, off, [] => some (m, off)
  | m, off, c :: d =>
    match wr m off (hexChar (c / 16)) with
    | none => none
    | some m =>
      match wr m (off + 1) (hexChar (c % 16)) with
      | none => none
      | some m => hexLoop m (off + 2) d

section
variable {X K P : Type} (lib : PkiLib X K P)

/-- utils.c:394-444, ssl_pubkey_hash, on the bytes of a certificate file; `.ok none` is NULL, `.err` is fatalx.  `junk` is what malloc(3) returns. -/
def sslPubkeyHash (junk buf : Bytes) : Res (Option Bytes) :=
  match (lib.pems buf).head? with
  | none => .ok none
  | some x =>
    match lib.digest (lib.pub x) with
    | none => .ok none
    | some digest =>
      if 128 < 2 * digest.length + 8 then .err
      else
        match strlcpy junk b%"SHA256:" 128 with
        | none => .ub
        | some (m, off) =>
          match hexLoop m off digest with
          | none => .ub
          | some (m, off) =>
            match wr m off 0 with
            | none => .ub
            | some m => .ok (some (cstr m))

/-- compat/libtls/tls_conninfo.c:32-59, tls_hex_string; `junk` is what reallocarray(3) returns for a digest of that length -/
def tlsHexString (junk : Nat → Bytes) (digest : Bytes) : Res Bytes :=
  match hexLoop (junk ((digest.length + 1) * 2)) 0 digest with
  | none => .ub
  | some (m, off) =>
    match wr m off 0 with
    | none => .ub
    | some m => .ok (cstr m)

/-- compat/libtls/tls.c:299-324, tls_cert_pubkey_hash, and tls_keypair.c:34-59, tls_keypair_pubkey_hash with tls_keypair_load_cert (136-171): the pubkey_hash
of a key pair, from the bytes of its certificate file; `.ok none` is -1 -/
def keypairPubkeyHash (junk : Nat → Bytes) (buf : Bytes) : Res (Option Bytes) :=
  match (lib.pems buf).head? with
  | none => .ok none
  | some x =>
    match lib.digest (lib.pub x) with
    | none => .ok none
    | some digest =>
      match tlsHexString junk digest with
      | .ok dhex => .ok (some (b%"SHA256:" ++ dhex))
      | .err => .err
      | .ub => .ub

/-- compat/libtls/tls.c:326-384, tls_keypair_to_pkey: the public key of what becomes the private key of the context; `none` is -1.  With fake keys it
is that of the certificate. -/
def keypairToPkey (fake : Bool) (cert key : Bytes) : Option P :=
  if fake then (lib.pems cert).head?.map lib.pub else (lib.key key).map lib.keyPub

/-- compat/libtls/tls.c:386-457, tls_keypair_setup_pkey (pubkey_hash is set); `true` is 0 -/
def keypairSetup (fake : Bool) (pkey : P) : Bool := !fake || lib.kind pkey != .other

/-- compat/libtls/tls.c:459-507, tls_configure_ssl_keypair, with openssl.c:126-190, ssl_ctx_use_certificate_chain_bio; `true` is 0.  Both SSL_CTX_use_PrivateKey
and SSL_CTX_check_private_key compare the public keys. -/
def configureKeypair [DecidableEq P] (fake : Bool) (cert key : Bytes) : Bool :=
  match lib.pems cert with
  | [] => false
  | x :: _ =>
    if !lib.clean cert then false
    else
      match keypairToPkey lib fake cert key with
      | none => false
      | some pkey => keypairSetup lib fake pkey && decide (pkey = lib.pub x)

/-- server.c:1464-1525, setup_tls: `true` unless fatal.  A key pair for which the name of the public key cannot be computed is not taken
(tls_config_set_keypair_ocsp_mem).  Every server has an address (parse.y), so that its key pair is loaded. -/
def setupTlsOk [DecidableEq P] (junk : Nat → Bytes) (fake : Bool) (kps : List (Bytes × Bytes)) : Bool :=
  kps.all fun kp =>
    match keypairPubkeyHash lib junk kp.1 with
    | .ok (some _) => configureKeypair lib fake kp.1 kp.2
    | _ => false

/-- utils.c:305-349, load_ca: the certificates of the store; `none` is NULL -/
def loadCaStore (d : Bytes) : Option (List X) :=
  match (lib.pems d).head? with
  | none => none
  | some x => if lib.isCa x then some [x] else none

/-- utils.c:351-380, validate_against_ca, on the PEM of the peer's chain -/
def validateAgainstCa (ca : List X) (chain : Bytes) : Int :=
  match (lib.pems chain).head? with
  | none => 0
  | some x => lib.verify ca x

/-- config.c:768-790, in config_test, with load_file (441-469): the certificate and the key of a server; `none` when one of them cannot be read -/
def testLoad (files : Bytes → Option Bytes) (h : CHost) : Option (Bytes × Bytes) :=
  match files (h.certPath.getD []), files (h.keyPath.getD []) with
  | some a, some b => some (a, b)
  | _, _ => none

/-- server.c:1543-1549, in load_vhosts with conf->conftest: the directory that is opened; `none` when its name is too long -/
def testPath (chroot dir : Bytes) : Option Bytes :=
  if chroot = [] then some dir
  else if (chroot ++ b%"/" ++ dir).length ≥ 4096 then none
  else some (chroot ++ b%"/" ++ dir)

/-- server.c:1536-1555, in load_vhosts with conf->conftest: a location; `none` when its directory cannot be opened (fatal) -/
def testDir (dirs : Bytes → Option Int) (chroot : Bytes) (l : CLoc) : Option Int :=
  if l.dir = [] then some (-1) else (testPath chroot l.dir).bind dirs

/-- config.c:755-799, config_test, with server_configure_done (server.c:1591-1608): `some true` when it succeeds, `none` when the process ends (fatal).
use_privsep_crypto is 0.  The types fit, as they did when they were read. -/
def configTest [DecidableEq P] (files : Bytes → Option Bytes) (junk : Nat → Bytes) (dirs : Bytes → Option Int) (c : CConf) : Option Bool :=
  match loadAll (testLoad files) c.hosts with
  | none => some false
  | some kps =>
    if !setupTlsOk lib junk false kps then none
    else
      match loadAll (fun h : CHost => loadAll (testDir dirs c.chroot) h.locs) c.hosts with
      | none => none
      | some _ => some true

end

end Gmid

import Verif.Model.Fcgi
import Verif.Model.TlsLib

/-!
# The certificate of a client, from the handshake to the parameters of an application

compat/libtls/tls.c:273-296, 778-811, tls_conninfo.c:31-160 and 231-278, and fcgi.c:476-499.
-/

set_option autoImplicit false

namespace Gmid

/-- struct tm, with the year in full and the months from 1 -/
structure Tm where
  year : Nat
  mon : Nat
  day : Nat
  hour : Nat
  min : Nat
  sec : Nat
  deriving Repr, DecidableEq

/-- a year of 366 days -/
def leapYear (y : Nat) : Bool := y % 4 = 0 && (y % 100 ≠ 0 || y % 400 = 0)

/-- the days of a year before its month `m`, and, for 13, all of them -/
def monthStart (leap : Bool) (m : Nat) : Nat :=
  [0, 0, 31, 59, 90, 120, 151, 181, 212, 243, 273, 304, 334, 365].getD m 0 + (if leap && 2 < m then 1 else 0)

/-- the days before the year `y`, from year 0 on -/
def yearStart (y : Nat) : Nat := 365 * y + (y + 3) / 4 - (y + 99) / 100 + (y + 399) / 400

/-- timegm(3), with a time_t of 64 bits: POSIX's "seconds since the epoch" -/
def timegm (t : Tm) : Int :=
  ((yearStart t.year + monthStart (leapYear t.year) t.mon + (t.day - 1) : Nat) - 719528 : Int) * 86400 + ((t.hour * 3600 + t.min * 60 + t.sec : Nat) : Int)

/-- the certificate of a client: its SHA-256 digest (X509_digest), X509_NAME_oneline of its names, and what ASN1_TIME_to_tm makes of its times -/
structure PeerCert where
  digest : Bytes
  subject : Bytes
  issuer : Bytes
  notBefore : Option Tm
  notAfter : Option Tm
  deriving Repr, DecidableEq

/-- struct tls_conninfo, as far as it is about the certificate -/
structure ConnCert where
  hash : Bytes
  subject : Bytes
  issuer : Bytes
  notBefore : Int
  notAfter : Int
  deriving Repr, DecidableEq

/-- tls_conninfo.c:44-53, the loop of tls_hex_string: hex[(in[i] >> 4) & 0x0f], hex[in[i] & 0x0f] -/
def certHex : Bytes → Bytes
  | [] => []
  | x :: r => b%"0123456789abcdef".getD ((x >>> 4) &&& 15).toNat 0 :: b%"0123456789abcdef".getD (x &&& 15).toNat 0 :: certHex r

/-- tls.c:273-296, tls_cert_hash.  (Simplification: there is memory.) -/
def tlsCertHash (digest : Bytes) : Bytes := b%"SHA256:" ++ certHex digest

/-- tls_conninfo.c:109-137, tls_get_peer_cert_times; `none` is -1.  ASN1_time_tm_clamp_notafter changes nothing when time_t has 64 bits (asn.c:65-79) -/
def tlsPeerTimes (p : PeerCert) : Option (Int × Int) :=
  match p.notBefore, p.notAfter with
  | some b, some a =>
    if timegm b = -1 then none
    else if timegm a = -1 then none
    else some (timegm b, timegm a)
  | _, _ => none

/-- tls_conninfo.c:139-160, tls_get_peer_cert_info; `none` is -1, `some none`: there is no certificate -/
def tlsPeerInfo : Option PeerCert → Option (Option ConnCert)
  | none => some none
  | some p =>
    match tlsPeerTimes p with
    | none => none
    | some (b, a) => some (some { hash := tlsCertHash p.digest, subject := p.subject, issuer := p.issuer, notBefore := b, notAfter := a })

/-- tls.c:778-811, tls_handshake, with tls_conninfo_populate (tls_conninfo.c:231-278), of which only tls_get_peer_cert_info can fail; `r` is what SSL_accept comes to
(`none`: 1), `p` the certificate the client has sent.  The last part is the conninfo. -/
def tlsHandshakePeer (c : LibConn) (r : Option SslFail) (p : Option PeerCert) : LibConn × LibRet × Option (Option ConnCert) :=
  match tlsHandshake c r none with
  | (c', .zero) =>
    match tlsPeerInfo p with
    | none => (c', .fail, none)
    | some i => (c', .zero, some i)
  | (c', rv) => (c', rv, none)

/-- two digits of printf's "%02d" -/
def dig2 (n : Nat) : Bytes := if n < 10 then c%'0' :: natDec n else natDec n

/-- strftime(3) with "%FT%TZ": %F is %Y-%m-%d and %T is %H:%M:%S (glibc does not pad a year before 1000) -/
def ftZ (t : Tm) : Bytes :=
  natDec t.year ++ b%"-" ++ dig2 t.mon ++ b%"-" ++ dig2 t.day ++ b%"T" ++ dig2 t.hour ++ b%":" ++ dig2 t.min ++ b%":" ++ dig2 t.sec ++ b%"Z"

/-- fcgi.c:491-499, gmtime_r and strftime into `char buf[22]`: a null pointer from gmtime_r is used, and when the text does not fit the contents of the buffer
are not specified -/
def certTime (gmtime : Int → Option Tm) (s : Int) : Res Bytes :=
  match gmtime s with
  | none => .ub
  | some t => if (ftZ t).length < 22 then .ok (ftZ t) else .ub

/-- fcgi.c:476-499, what fcgi_req takes from the connection; `tls_peer_cert_provided` is that there is a certificate -/
def fcgiCertOf (gmtime : Int → Option Tm) (version cipher strength : Bytes) : Option ConnCert → Res (Option FcgiCert)
  | none => .ok none
  | some i =>
    match certTime gmtime i.notBefore with
    | .ok b =>
      match certTime gmtime i.notAfter with
      | .ok a => .ok (some { subject := i.subject, issuer := i.issuer, hash := i.hash, version := version, cipher := cipher, strength := strength, notBefore := b, notAfter := a })
      | .err => .err
      | .ub => .ub
    | .err => .err
    | .ub => .ub

end Gmid

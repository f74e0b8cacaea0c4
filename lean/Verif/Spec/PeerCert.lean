import Verif.Model.PeerCert

/-!
# What an application is told of the client's certificate: what it means
-/

set_option autoImplicit false

namespace Gmid.Spec

/-- the value of a hexadecimal digit, `a` to `f` in lower case -/
def lowHexVal (c : UInt8) : Option Nat :=
  if c%'0' ≤ c ∧ c ≤ c%'9' then some (c.toNat - 48)
  else if c%'a' ≤ c ∧ c ≤ c%'f' then some (c.toNat - 87)
  else none

/-- the bytes that a text of pairs of hexadecimal digits stands for -/
def readHex : Bytes → Option Bytes
  | [] => some []
  | [_] => none
  | a :: b :: r =>
    match lowHexVal a, lowHexVal b, readHex r with
    | some x, some y, some l => some (UInt8.ofNat (16 * x + y) :: l)
    | _, _, _ => none

/-- the days of the months -/
def monthDays (y m : Nat) : Nat :=
  if m = 2 then (if (4 ∣ y ∧ ¬ 100 ∣ y) ∨ 400 ∣ y then 29 else 28)
  else if m = 4 ∨ m = 6 ∨ m = 9 ∨ m = 11 then 30 else 31

/-- a date and a time of day, up to the year 9999 -/
structure RealTime (t : Tm) : Prop where
  year : t.year ≤ 9999
  mon : 1 ≤ t.mon ∧ t.mon ≤ 12
  day : 1 ≤ t.day ∧ t.day ≤ monthDays t.year t.mon
  hour : t.hour ≤ 23
  min : t.min ≤ 59
  sec : t.sec ≤ 59

/-- gmtime_r(3): an instant as a date and a time of day -/
def SaysTime (gmtime : Int → Option Tm) : Prop := ∀ t, RealTime t → gmtime (timegm t) = some t

/-- a digit -/
def digitOf (n : Nat) : UInt8 := UInt8.ofNat (48 + n % 10)

/-- "YYYY-MM-DDThh:mm:ssZ" -/
def isoText (t : Tm) : Bytes :=
  [digitOf (t.year / 1000), digitOf (t.year / 100), digitOf (t.year / 10), digitOf t.year, c%'-', digitOf (t.mon / 10), digitOf t.mon, c%'-',
   digitOf (t.day / 10), digitOf t.day, c%'T', digitOf (t.hour / 10), digitOf t.hour, c%':', digitOf (t.min / 10), digitOf t.min, c%':',
   digitOf (t.sec / 10), digitOf t.sec, c%'Z']

/-- the last second of 1969 -/
def lastOf1969 : Tm := { year := 1969, mon := 12, day := 31, hour := 23, min := 59, sec := 59 }

/-- a certificate as OpenSSL takes one: a digest of 32 bytes, and the times are times -/
structure PeerCertOk (p : PeerCert) : Prop where
  digest : p.digest.length = 32
  before : ∃ t, p.notBefore = some t ∧ RealTime t
  after : ∃ t, p.notAfter = some t ∧ RealTime t

/-- what an application is told: the names as OpenSSL writes them, the digest, which is the 64 digits after "SHA256:", and the times -/
structure Told (p : PeerCert) (ps : List (Bytes × Bytes)) : Prop where
  kind : (b%"AUTH_TYPE", b%"CERTIFICATE") ∈ ps
  subject : (b%"REMOTE_USER", p.subject) ∈ ps
  issuer : (b%"TLS_CLIENT_ISSUER", p.issuer) ∈ ps
  hash : ∃ h, (b%"TLS_CLIENT_HASH", b%"SHA256:" ++ h) ∈ ps ∧ h.length = 64 ∧ readHex h = some p.digest
  before : ∀ t, p.notBefore = some t → 1000 ≤ t.year → (b%"TLS_CLIENT_NOT_BEFORE", isoText t) ∈ ps
  after : ∀ t, p.notAfter = some t → 1000 ≤ t.year → (b%"TLS_CLIENT_NOT_AFTER", isoText t) ∈ ps

end Gmid.Spec

import Verif.Spec.Utf8
import Verif.Spec.Path

set_option autoImplicit false

/-!
# Specification of the IRIs gmid accepts, as a declarative grammar

Nothing here refers to the parser.  Raw text is related to the components the parser must return.
-/

namespace Gmid.Spec

/-- RFC 3986 unreserved characters -/
def Unreserved (c : UInt8) : Prop :=
  c ∈ b%"ABCDEFGHIJKLMNOPQRSTUVWXYZabcdefghijklmnopqrstuvwxyz0123456789-._~"

/-- RFC 3986 sub-delims -/
def SubDelim (c : UInt8) : Prop := c ∈ b%"!$&'()*+,;="

/-- characters that may appear unescaped in a host name -/
def HostChar (c : UInt8) : Prop := Unreserved c ∨ SubDelim c
/-- characters that may appear unescaped in a path (pchar and slash) -/
def PathChar (c : UInt8) : Prop := Unreserved c ∨ SubDelim c ∨ c ∈ b%"@:/"
/-- characters that may appear unescaped in a query -/
def QueryChar (c : UInt8) : Prop := Unreserved c ∨ SubDelim c ∨ c ∈ b%"@:/?"

/-- `HexVal c n`: the hexadecimal digit `c` has value `n` -/
def HexVal (c : UInt8) (n : Nat) : Prop :=
  b%"0123456789abcdef"[n]? = some c ∨ b%"0123456789ABCDEF"[n]? = some c

/-- `Escape a b v`: the escape `%ab` denotes the byte `v` -/
def Escape (a b v : UInt8) : Prop := ∃ x y, HexVal a x ∧ HexVal b y ∧ v.toNat = 16 * x + y

/-- `Decodes cls raw dec`: `raw` is a sequence of characters of the class `cls`, percent escapes
other than `%00`, and UTF-8 encoded non-ASCII characters, and `dec` is `raw` with every escape
replaced, once, by the byte it denotes. -/
inductive Decodes (cls : UInt8 → Prop) : List UInt8 → List UInt8 → Prop where
  | nil : Decodes cls [] []
  | lit (c : UInt8) (raw dec : List UInt8) : cls c → Decodes cls raw dec →
      Decodes cls (c :: raw) (c :: dec)
  | pct (a b v : UInt8) (raw dec : List UInt8) : Escape a b v → v ≠ 0 → Decodes cls raw dec →
      Decodes cls (c%'%' :: a :: b :: raw) (v :: dec)
  | multi (u raw dec : List UInt8) : Utf8Multi u → Decodes cls raw dec →
      Decodes cls (u ++ raw) (u ++ dec)

/-- ASCII lower-casing -/
def lower (c : UInt8) : UInt8 := if 65 ≤ c.toNat ∧ c.toNat ≤ 90 then c + 32 else c

/-- ALPHA *( ALPHA / DIGIT / "+" / "-" / "." ) -/
def SchemeName (s : List UInt8) : Prop :=
  ∃ c r, s = c :: r ∧ c ∈ b%"ABCDEFGHIJKLMNOPQRSTUVWXYZabcdefghijklmnopqrstuvwxyz" ∧
    ∀ x ∈ r, x ∈ b%"ABCDEFGHIJKLMNOPQRSTUVWXYZabcdefghijklmnopqrstuvwxyz0123456789+-."

/-- the value of a string of decimal digits -/
def decimal (ds : List UInt8) : Nat := ds.foldl (fun n d => n * 10 + (d.toNat - 48)) 0

/-- a numeric address in brackets, or a host name; `host` is what the server sees -/
def Authority (isAddr : List UInt8 → Bool) (raw host : List UInt8) : Prop :=
  (raw = c%'[' :: (host ++ [c%']']) ∧ c%']' ∉ host ∧ isAddr host = true) ∨
  (∃ d, Decodes HostChar raw d ∧ host = d.map lower)

/-- nothing (port 1965), or a colon and decimal digits -/
def PortPart (raw port : List UInt8) (portNo : Nat) : Prop :=
  (raw = [] ∧ port = [] ∧ portNo = 1965) ∨
  (raw = c%':' :: port ∧ (∀ d ∈ port, d ∈ b%"0123456789") ∧ portNo = decimal port ∧ portNo ≤ 65535)

/-- nothing, "#fragment", "?query" or "?query#fragment"; the query is kept undecoded -/
def QueryFragment (raw query fragment : List UInt8) : Prop :=
  (raw = [] ∧ query = [] ∧ fragment = []) ∨
  (raw = c%'#' :: fragment ∧ query = []) ∨
  (raw = c%'?' :: query ∧ fragment = [] ∧ ∃ d, Decodes QueryChar query d) ∨
  (raw = c%'?' :: (query ++ c%'#' :: fragment) ∧ ∃ d, Decodes QueryChar query d)

/-- nothing, or a slash, a path, and the rest; the path seen by the server is decoded first and
normalised afterwards -/
def Tail (raw path query fragment : List UInt8) : Prop :=
  (raw = [] ∧ path = [] ∧ query = [] ∧ fragment = []) ∨
  (∃ rp d qf, raw = c%'/' :: (rp ++ qf) ∧ Decodes PathChar rp d ∧ path = normalize d ∧
    QueryFragment qf query fragment)

/-- `IriGrammar isAddr s ...`: the string `s` is an IRI with these components. -/
def IriGrammar (isAddr : List UInt8 → Bool) (s schema host port : List UInt8) (portNo : Nat)
    (path query fragment : List UInt8) : Prop :=
  ∃ sch auth pp tail, s = sch ++ b%"://" ++ auth ++ pp ++ tail ∧
    SchemeName sch ∧ schema = sch.map lower ∧ Authority isAddr auth host ∧ PortPart pp port portNo ∧
    Tail tail path query fragment

end Gmid.Spec

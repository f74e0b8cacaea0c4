import Verif.Model.Basic
import Verif.Spec.Iri

/-!
# Specification: the FastCGI protocol (version 1)

Records and name-value pairs as an application decodes them; what a client must receive for the
output of an application.
-/

set_option autoImplicit false

namespace Gmid.Spec

/-- a FastCGI record -/
structure FRec where
  version : UInt8 := 1
  type : UInt8
  id : Nat := 1
  content : List UInt8
  padding : List UInt8 := []
  reserved : UInt8 := 0
  deriving Repr, DecidableEq

/-- the number in two bytes, most significant first -/
def num16 (hi lo : UInt8) : Nat := hi.toNat * 256 + lo.toNat

/-- A sequence of bytes read as records: an 8 byte header with version, type, request id, content length,
padding length and a reserved byte, then content and padding.  The fuel is a bound on their number. -/
def decodeRecords : Nat → List UInt8 → Option (List FRec)
  | _, [] => some []
  | f + 1, v :: t :: i1 :: i0 :: l1 :: l0 :: p :: rs :: rest =>
    if rest.length < num16 l1 l0 + p.toNat then none
    else (decodeRecords f (rest.drop (num16 l1 l0 + p.toNat))).map
      ({ version := v, type := t, id := num16 i1 i0, content := rest.take (num16 l1 l0),
         padding := (rest.drop (num16 l1 l0)).take p.toNat, reserved := rs } :: ·)
  | _, _ => none

/-- a length in a name-value pair: one byte below 128, or four with the top bit set -/
def decodeLen : List UInt8 → Option (Nat × List UInt8)
  | a :: r =>
    if a < 128 then some (a.toNat, r)
    else match r with
      | b :: c :: d :: r => some ((a.toNat - 128) * 16777216 + b.toNat * 65536 + c.toNat * 256 + d.toNat, r)
      | _ => none
  | [] => none

/-- a sequence of name-value pairs -/
def decodePairs : Nat → List UInt8 → Option (List (List UInt8 × List UInt8))
  | _, [] => some []
  | 0, _ => none
  | f + 1, s => do
    let (n, s) ← decodeLen s
    let (v, s) ← decodeLen s
    if s.length < n + v then none
    else
      let r ← decodePairs f (s.drop (n + v))
      some ((s.take n, (s.drop n).take v) :: r)

/-- An application's view of a request: BEGIN_REQUEST for the responder role, a stream of PARAMS ended by
an empty record, and an empty STDIN, all with the same id; the name-value pairs received. -/
def receivesRequest (s : List UInt8) (id : Nat) (params : List (List UInt8 × List UInt8)) : Prop :=
  ∃ (first : FRec) (ps : List FRec) (endp stdin : FRec),
    decodeRecords s.length s = some (first :: ps ++ [endp, stdin]) ∧
    (∀ r ∈ first :: ps ++ [endp, stdin], r.version = 1 ∧ r.id = id) ∧
    first.type = 1 ∧ first.content.length = 8 ∧ first.content.take 2 = [0, 1] ∧
    (∀ r ∈ ps, r.type = 4 ∧ r.content ≠ []) ∧
    endp.type = 4 ∧ endp.content = [] ∧ stdin.type = 5 ∧ stdin.content = [] ∧
    decodePairs s.length (ps.flatMap (·.content)) = some params

/-- the text a query stands for: `+` is a space, an escape its byte, anything else itself -/
inductive QueryText : List UInt8 → List UInt8 → Prop where
  | nil : QueryText [] []
  | plus (r t : List UInt8) : QueryText r t → QueryText (c%'+' :: r) (c%' ' :: t)
  | pct (a b v : UInt8) (r t : List UInt8) : Escape a b v → v ≠ 0 → QueryText r t →
      QueryText (c%'%' :: a :: b :: r) (v :: t)
  | lit (c : UInt8) (r t : List UInt8) : c ≠ c%'+' → c ≠ c%'%' → QueryText r t → QueryText (c :: r) (c :: t)

/-! ### the output of an application -/

/-- a record on the wire -/
def FRec.wire (r : FRec) : List UInt8 :=
  [r.version, r.type, UInt8.ofNat (r.id / 256), UInt8.ofNat (r.id % 256), UInt8.ofNat (r.content.length / 256),
   UInt8.ofNat (r.content.length % 256), UInt8.ofNat r.padding.length, r.reserved] ++ r.content ++ r.padding

/-- a record an application may send while it answers: STDOUT (6) or STDERR (7), of any size, with any
padding -/
def OutputRec (r : FRec) : Prop :=
  (r.type = 6 ∨ r.type = 7) ∧ r.id = 1 ∧ r.content.length < 65536 ∧ r.padding.length < 256

/-- the END_REQUEST record: 8 bytes of content -/
def EndRec (r : FRec) : Prop := r.type = 3 ∧ r.id = 1 ∧ r.content.length = 8 ∧ r.padding.length < 256

/-- the output of the application: the STDOUT contents, in order -/
def stdoutOf (rs : List FRec) : List UInt8 := rs.flatMap fun r => if r.type = 6 then r.content else []

/-- no line break inside: the text of a line -/
def NoCrlf (l : List UInt8) : Prop := ∀ a b, l ++ [13] = a ++ [13, 10] ++ b → False

/-- `o` starts with a gemini header: status code, space, text of at most 1024 bytes, CRLF; `body` follows -/
def HasHeader (o : List UInt8) (code : Nat) (text body : List UInt8) : Prop :=
  ∃ d1 d2 : UInt8, 48 ≤ d1 ∧ d1 ≤ 57 ∧ 48 ≤ d2 ∧ d2 ≤ 57 ∧ code = (d1.toNat - 48) * 10 + (d2.toNat - 48) ∧
    10 ≤ code ∧ code < 70 ∧ text.length ≤ 1024 ∧ NoCrlf (d1 :: d2 :: 32 :: text) ∧
    o = d1 :: d2 :: 32 :: text ++ [13, 10] ++ body

end Gmid.Spec

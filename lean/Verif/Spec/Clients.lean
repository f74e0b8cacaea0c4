import Verif.Model.Clients

/-!
# What gg and titan are meant to do
-/
set_option autoImplicit false

namespace Gmid.Spec

open Gmid

/-- everything a script delivers, and whether it comes to the orderly end -/
def stream : List TRead → Bytes × Bool
  | [] => ([], true)
  | .want :: r => stream r
  | .fail :: _ => ([], false)
  | .data b t :: r => (b :: t ++ (stream r).1, (stream r).2)

/-- a gemini reply: a status of two digits, a space, the meta, CR LF, and the body.  The first CR LF
ends the header. -/
structure Reply where
  d1 : UInt8
  d2 : UInt8
  text : Bytes      -- the meta
  body : Bytes

/-- the bytes of a reply -/
def Reply.header (r : Reply) : Bytes := [r.d1, r.d2, 32] ++ r.text
def Reply.bytes (r : Reply) : Bytes := r.header ++ [13, 10] ++ r.body

/-- the status, as a number -/
def Reply.status (r : Reply) : Nat := (r.d1.toNat - 48) * 10 + (r.d2.toNat - 48)

/-- two digits, and no earlier CR LF (nor one made by the meta's last byte) -/
structure Reply.WF (r : Reply) : Prop where
  digit1 : 48 ≤ r.d1 ∧ r.d1 ≤ 57
  digit2 : 48 ≤ r.d2 ∧ r.d2 ≤ 57
  crlf : ∀ a b : Bytes, r.text ≠ a ++ [13, 10] ++ b

/-- the exit status gg(1) documents for a reply -/
def ggExit (status : Nat) : Nat := if 20 ≤ status ∧ status < 30 then 0 else status

/-- the reads of iomux: all data up to the end of the connection, if it gets there without a failure -/
def roundsReply : List Round → Option Bytes
  | [] => none
  | q :: qs =>
    match q.rd with
    | none => some []
    | some .want => roundsReply qs
    | some .fail => none
    | some (.data b t) => (roundsReply qs).map (b :: t ++ ·)

/-- what titan(1) says about the exit status, and what is printed, for a reply line -/
def titanSays (r : Reply) : Bytes × Nat :=
  if r.status < 10 ∨ 70 ≤ r.status then ([], 1)
  else if 20 ≤ r.status ∧ r.status < 30 then ([], 0)
  else if 30 ≤ r.status ∧ r.status < 40 then (cstr r.text ++ b%"\n", 0)
  else ([], 2)

/-- how many bytes the writes of these rounds would take -/
def took : List Round → Nat
  | [] => 0
  | q :: qs => (match q.wr with | .took n => n + 1 | _ => 0) + took qs

/-- the request line titan(1) promises: the url with the parameters added to its path -/
def titanLine (host path query : Bytes) (size : Nat) (token mimeArg : Option Bytes) : Bytes :=
  b%"titan://" ++ host ++ b%"/" ++ path ++ b%";size=" ++ natDec size ++
    (match token with | some t => b%";token=" ++ t | none => []) ++
    (match mimeArg with | some m => b%";mime=" ++ m | none => []) ++
    (if query = [] then [] else b%"?" ++ query)

end Gmid.Spec

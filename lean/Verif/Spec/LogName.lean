import Verif.Model.LogName

/-!
# Specification of the log, independent of the way it is written
-/

set_option autoImplicit false

namespace Gmid.Spec
open Gmid

/-- the request has not been looked at yet: all the pointers of c->iri are null -/
def NotYet (p : IriPtrs) : Prop := p.schema = none ∧ p.host = none ∧ p.path = none ∧ p.query = none

/-- the request has been looked at: none is -/
def LookedAt (p : IriPtrs) : Prop := (∃ s, p.schema = some s) ∧ (∃ s, p.host = some s) ∧ (∃ s, p.path = some s) ∧ (∃ s, p.query = some s)

/-- the formats that show the name of the host on its own -/
def ShowsHost (f : LogFormat) : Prop := f = .condensed ∨ f = .common

/-- the request, as one is shown it: the scheme, the name the client asked for (that of the request if there is none), the path with a slash in front, and the query -/
structure ShownAs (l : LogIn) (p : IriPtrs) (t : Bytes) : Prop where
  text : ∃ sch name path query slash, p.schema = some sch ∧ p.path = some path ∧ p.query = some query ∧
    (l.domain ≠ [] → name = l.domain) ∧ (l.domain = [] → p.host = some name) ∧
    (path.head? = some c%'/' → slash = []) ∧ (path.head? ≠ some c%'/' → slash = b%"/") ∧
    t = sch ++ b%"://" ++ name ++ slash ++ path ++ (if query = [] then [] else b%"?" ++ query)

/-- a name the decoder takes as it is: its first label is neither empty, nor 64 bytes or more, nor marked as encoded -/
def PlainStart (name : Bytes) : Prop :=
  ∃ l rest, name = l ++ rest ∧ (rest = [] ∨ rest.head? = some c%'.') ∧ c%'.' ∉ l ∧ l ≠ [] ∧ l.length < 64 ∧ ¬ b%"xn--" <+: l

end Gmid.Spec

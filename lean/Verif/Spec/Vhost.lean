import Verif.Model.Vhost

set_option autoImplicit false

/-! # Specification of "the first matching block that sets the option wins" -/

namespace Gmid.Spec

variable (fnm : List UInt8 → List UInt8 → Bool)

/-- the location's pattern matches the path, whose leading slash (if any) is not significant -/
def LocMatches (l : Location) (path : List UInt8) : Prop :=
  fnm l.pat (if path.head? = some c%'/' then path.tail else path) = true

/-- `l` is the first location of `locs` that sets the option and matches -/
def FirstSet (set : Location → Prop) (locs : List Location) (path : List UInt8) (l : Location) : Prop :=
  ∃ before after, locs = before ++ l :: after ∧ set l ∧ LocMatches fnm l path ∧
    ∀ x ∈ before, ¬ (set x ∧ LocMatches fnm x path)

/-- no location sets the option and matches -/
def NoneSet (set : Location → Prop) (locs : List Location) (path : List UInt8) : Prop :=
  ∀ x ∈ locs, ¬ (set x ∧ LocMatches fnm x path)

/-- the name matches the host's domain or one of its aliases -/
def HostMatches (v : Vhost) (name : List UInt8) : Prop :=
  ∃ p, (p = v.domain ∨ p ∈ v.aliases) ∧
    fnm p (if name.head? = some c%'/' then name.tail else name) = true

/-- a relay-to rule matches: omitted patterns default to gemini, `*` and `*` -/
def RelayMatches (p : Proxy) (schema domain port : List UInt8) : Prop :=
  let m (pat s : List UInt8) : Prop := fnm pat (if s.head? = some c%'/' then s.tail else s) = true
  m (if p.matchProto = [] then b%"gemini" else p.matchProto) schema ∧
  m (if p.matchHost = [] then b%"*" else p.matchHost) domain ∧
  m (if p.matchPort = [] then b%"*" else p.matchPort) port

end Gmid.Spec
